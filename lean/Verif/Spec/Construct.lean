import Verif.Model.Construct
import Verif.Spec.Library

/-!
# Specification: programs of the user, from the constructors on
-/

set_option autoImplicit false

namespace Verif

/-- The arguments fit a function with these parameters. -/
structure Args.Fit (a : Args) (params : List String) : Prop where
  pos : a.pos.length ≤ params.length
  once : ((params.zip a.pos ++ a.kw).map Prod.fst).Nodup
  known : ∀ e ∈ a.kw, e.1 ∈ params

/-- The value of a parameter in a call: what is given for it, or the default. -/
def Args.value (a : Args) (params : List String) (k : String) (default : Val) : Val :=
  ((params.zip a.pos ++ a.kw).lookup k).getD default

/-- No argument is an estimator. -/
def Args.Plain (a : Args) : Prop := (∀ v ∈ a.pos, IsPlain v) ∧ ∀ e ∈ a.kw, IsPlain e.2

/-- The parameters of `BallCover`. -/
def ballParams : List String :=
  ["radius", "metric", "metric_params", "kind", "leaf_capacity", "leaf_radius", "pivoting"]

/-- The parameters of `KNNCover`. -/
def knnParams : List String :=
  ["neighbors", "metric", "metric_params", "kind", "leaf_capacity", "leaf_radius", "pivoting"]

/-- The parameters of `CubicalCover`. -/
def cubicalParams : List String :=
  ["n_intervals", "overlap_frac", "algorithm", "kind", "leaf_capacity", "leaf_radius", "pivoting"]

/-- The parameters of `ProximityCubicalCover` and `StandardCubicalCover`. -/
def baseCubicalParams : List String :=
  ["n_intervals", "overlap_frac", "kind", "leaf_capacity", "leaf_radius", "pivoting"]

/-- The documented classes with their parameters, in order, and the documented default values. -/
def documentedDefaults : List (String × List (String × Val)) :=
  [("BallCover", [("radius", .int 1), ("metric", .str "euclidean"), ("metric_params", .none),
      ("kind", .str "flat"), ("leaf_capacity", .int 1), ("leaf_radius", .none),
      ("pivoting", .str "disabled")]),
   ("KNNCover", [("neighbors", .int 1), ("metric", .str "euclidean"), ("metric_params", .none),
      ("kind", .str "flat"), ("leaf_capacity", .none), ("leaf_radius", .int 0),
      ("pivoting", .str "disabled")]),
   ("CubicalCover", [("n_intervals", .int 1), ("overlap_frac", .none),
      ("algorithm", .str "proximity"), ("kind", .str "flat"), ("leaf_capacity", .int 1),
      ("leaf_radius", .none), ("pivoting", .str "disabled")]),
   ("ProximityCubicalCover", [("n_intervals", .int 1), ("overlap_frac", .none),
      ("kind", .str "flat"), ("leaf_capacity", .int 1), ("leaf_radius", .none),
      ("pivoting", .str "disabled")]),
   ("StandardCubicalCover", [("n_intervals", .int 1), ("overlap_frac", .none),
      ("kind", .str "flat"), ("leaf_capacity", .int 1), ("leaf_radius", .none),
      ("pivoting", .str "disabled")]),
   ("MapperAlgorithm", [("cover", .none), ("clustering", .none), ("failsafe", .bool true),
      ("verbose", .bool true), ("n_jobs", .int 1)]),
   ("MapperClustering", [("cover", .none), ("clustering", .none), ("n_jobs", .int 1)]),
   ("FailSafeClustering", [("clustering", .none), ("verbose", .bool true)]),
   ("TrivialCover", []), ("TrivialClustering", [])]

/-- The arguments `a` of `BallCover(...)` stand for the distance `d` and the radius `r`; the
documented defaults are radius 1, the euclidean metric, a flat tree, capacity 1. -/
structure BallArgs (I : Interp) {k : ℕ} (a : Args) (d : RVec k → RVec k → ℝ) (r : ℝ) : Prop where
  fit : a.Fit ballParams
  plain : a.Plain
  metric : IsMetricParam I (a.value ballParams "metric" (.str "euclidean"))
    (a.value ballParams "metric_params" .none) d
  radius : IsNum I (a.value ballParams "radius" (.int 1)) r
  kind : ∃ s, a.value ballParams "kind" (.str "flat") = .str s ∧ IsKind s
  capacity : ∃ c : ℕ, a.value ballParams "leaf_capacity" (.int 1) = .int c ∧ 1 ≤ c
  leafRadius : IsNumOrNone I (a.value ballParams "leaf_radius" .none)

/-- The arguments of `KNNCover(...)` stand for the distance `d` and `n` neighbours; the
documented defaults are one neighbour, the euclidean metric, a flat tree, the capacity being
the number of neighbours, leaf radius 0. -/
structure KnnArgs (I : Interp) {k : ℕ} (a : Args) (d : RVec k → RVec k → ℝ) (n : ℕ) : Prop where
  fit : a.Fit knnParams
  plain : a.Plain
  metric : IsMetricParam I (a.value knnParams "metric" (.str "euclidean"))
    (a.value knnParams "metric_params" .none) d
  neighbors : a.value knnParams "neighbors" (.int 1) = .int n
  pos : 1 ≤ n
  kind : ∃ s, a.value knnParams "kind" (.str "flat") = .str s ∧ IsKind s
  capacity : a.value knnParams "leaf_capacity" .none = .none ∨
    ∃ c : ℕ, a.value knnParams "leaf_capacity" .none = .int c
  leafRadius : ∃ x, IsNum I (a.value knnParams "leaf_radius" (.int 0)) x

/-- The arguments of a cubical cover with these parameters stand for `n` intervals and, in
dimension `k`, the overlap fraction `p`; the documented defaults are one interval, the
default overlap fraction (C26), a flat tree, capacity 1. -/
structure CubArgs (I : Interp) (k : ℕ) (params : List String) (a : Args) (n : ℕ) (p : ℝ) : Prop where
  fit : a.Fit params
  plain : a.Plain
  intervals : a.value params "n_intervals" (.int 1) = .int n
  pos : 1 ≤ n
  overlap : (a.value params "overlap_frac" .none = .none ∧ p = defaultOverlap k) ∨
    (IsNum I (a.value params "overlap_frac" .none) p ∧ 0 < p ∧ p < 1)
  kind : ∃ s, a.value params "kind" (.str "flat") = .str s ∧ IsKind s
  capacity : ∃ c : ℕ, a.value params "leaf_capacity" (.int 1) = .int c ∧ 1 ≤ c
  leafRadius : IsNumOrNone I (a.value params "leaf_radius" .none)

/-- The call `cls(a)` makes a cubical cover of the standard (`std`) or the proximity kind; the
default is proximity. -/
inductive CubCall (I : Interp) (k : ℕ) : String → Args → Bool → ℕ → ℝ → Prop
  | standard {a : Args} {n : ℕ} {p : ℝ} : CubArgs I k baseCubicalParams a n p →
      CubCall I k "StandardCubicalCover" a true n p
  | proximity {a : Args} {n : ℕ} {p : ℝ} : CubArgs I k baseCubicalParams a n p →
      CubCall I k "ProximityCubicalCover" a false n p
  | cubical {a : Args} {n : ℕ} {p : ℝ} {std : Bool} : CubArgs I k cubicalParams a n p →
      a.value cubicalParams "algorithm" (.str "proximity") =
        .str (if std then "standard" else "proximity") →
      CubCall I k "CubicalCover" a std n p

/-- Keyword arguments of `MapperAlgorithm` besides `cover` and `clustering`. -/
structure AlgKwargs (kw : List (String × Val)) : Prop where
  once : (kw.map Prod.fst).Nodup
  known : ∀ e ∈ kw, e.1 = "failsafe" ∨ e.1 = "verbose" ∨ e.1 = "n_jobs"
  plain : ∀ e ∈ kw, IsPlain e.2

/-- `MapperAlgorithm(**kw).fit_transform(X, y)` -/
def mapperProgram (W : World) (fuel : ℕ) (kw : List (String × Val)) (X : Input)
    (y : Option Input) : Eff Val := do
  let r ← construct W "MapperAlgorithm" ⟨[], kw⟩
  mapperFitTransform W fuel r X y

/-- `MapperAlgorithm(cls(a), **kw).fit_transform(X, y)` -/
def mapperCoverProgram (W : World) (fuel : ℕ) (cls : String) (a : Args) (kw : List (String × Val))
    (X : Input) (y : Option Input) : Eff Val := do
  let rc ← construct W cls a
  let r ← construct W "MapperAlgorithm" ⟨[.obj rc], kw⟩
  mapperFitTransform W fuel r X y

/-- `MapperClustering().fit(X, y).labels_` -/
def clusteringProgram (W : World) (fuel : ℕ) (X : Input) (y : Option Input) : Eff Val := do
  let r ← construct W "MapperClustering" ⟨[], []⟩
  mapperClusteringFit W fuel r X y
  readAttr r "labels_"

/-- `MapperClustering(cls(a)).fit(X, y).labels_` -/
def clusteringCoverProgram (W : World) (fuel : ℕ) (cls : String) (a : Args) (X : Input)
    (y : Option Input) : Eff Val := do
  let rc ← construct W cls a
  let r ← construct W "MapperClustering" ⟨[.obj rc], []⟩
  mapperClusteringFit W fuel r X y
  readAttr r "labels_"

end Verif

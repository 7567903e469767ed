import Verif.Model.Library
import Verif.Spec.Cover
import Verif.Spec.CoverParams
import Verif.Spec.Nerve
import Verif.Spec.Learn

/-!
# Specification: estimators with the covers of the library

Matrices as arguments, the meaning of the attributes of a cover object, and graphs
whose nodes are regions of the lens space.
-/

set_option autoImplicit false

namespace Verif

/-- A two-dimensional array of numbers with these rows. -/
def matrixInput {k : ℕ} (A : List (Fin k → ℚ)) : Input :=
  ⟨false, .ok ⟨[A.length, k], .real (A.flatMap fun row => List.ofFn fun j => .finite (row j))⟩⟩

/-- A one-dimensional array of numbers. -/
def vectorInput (v : List ℚ) : Input := ⟨false, .ok ⟨[v.length], .real (v.map .finite)⟩⟩

/-- The rows as points of real space. -/
noncomputable def realRows {k : ℕ} (A : List (Fin k → ℚ)) : List (Fin k → ℝ) :=
  A.map fun row j => (row j : ℝ)

/-- A lens argument with these rows: a matrix, or a one-dimensional array for rows with one
entry. -/
inductive IsLens : ∀ {k : ℕ}, Input → List (Fin k → ℚ) → Prop
  | matrix {k : ℕ} (A : List (Fin k → ℚ)) : IsLens (matrixInput A) A
  | vector (v : List ℚ) : IsLens (vectorInput v) (v.map fun x (_ : Fin 1) => x)

/-- The value is the number `x`. -/
inductive IsNum (I : Interp) : Val → ℝ → Prop
  | int (i : ℤ) : IsNum I (.int i) i
  | float {n : ℕ} {x : ℝ} : I.num n = some x → IsNum I (.opaque n) x

/-- The value is `None` or a number. -/
def IsNumOrNone (I : Interp) (v : Val) : Prop := v = .none ∨ ∃ x, IsNum I v x

/-- The keyword arguments for the metric: none, or a dictionary. -/
inductive IsKwargs (I : Interp) : Val → PyDict String KwVal → Prop
  | none : IsKwargs I .none PyDict.empty
  | dict {n : ℕ} {kw : PyDict String KwVal} : I.kwargs n = some kw → IsKwargs I (.opaque n) kw

/-- The parameters `metric` and `metric_params` stand for the distance `d` on vectors of
dimension `k`: the name of a metric and its arguments, or a function. -/
inductive IsMetricParam (I : Interp) {k : ℕ} : Val → Val → (RVec k → RVec k → ℝ) → Prop
  | name {s : String} {params : Val} {kw : PyDict String KwVal} {f : Dist k}
      {d : RVec k → RVec k → ℝ} : IsKwargs I params kw → getMetric (.name s) kw = .ok f →
      (∀ x y, f x y = .ok (d x y)) → IsMetricParam I (.str s) params d
  | callable {n : ℕ} {params : Val} {kw : PyDict String KwVal}
      {d : ∀ m : ℕ, RVec m → RVec m → ℝ} : IsKwargs I params kw → I.metric n = some d →
      IsMetricParam I (.opaque n) params (d k)

/-- The attributes of a `BallCover` with distance `d` and radius `r`, whose other parameters are
as documented. -/
def BallAttrs (I : Interp) {k : ℕ} (a : PyDict String Val) (d : RVec k → RVec k → ℝ) (r : ℝ) : Prop :=
  ∃ metric params radius kind leafRadius pivoting, ∃ capacity : ℕ,
    a.get? "metric" = some metric ∧ a.get? "metric_params" = some params ∧
    IsMetricParam I metric params d ∧
    a.get? "radius" = some radius ∧ IsNum I radius r ∧
    a.get? "kind" = some (.str kind) ∧ IsKind kind ∧
    a.get? "leaf_capacity" = some (.int capacity) ∧ 1 ≤ capacity ∧
    a.get? "leaf_radius" = some leafRadius ∧ IsNumOrNone I leafRadius ∧
    a.get? "pivoting" = some pivoting

/-- The attributes of a `KNNCover` with distance `d` and `n` neighbours, whose other
parameters are as documented. -/
def KnnAttrs (I : Interp) {k : ℕ} (a : PyDict String Val) (d : RVec k → RVec k → ℝ) (n : ℕ) : Prop :=
  ∃ metric params kind capacity leafRadius pivoting,
    a.get? "metric" = some metric ∧ a.get? "metric_params" = some params ∧
    IsMetricParam I metric params d ∧
    a.get? "neighbors" = some (.int n) ∧ 1 ≤ n ∧
    a.get? "kind" = some (.str kind) ∧ IsKind kind ∧
    a.get? "leaf_capacity" = some capacity ∧ (capacity = .none ∨ ∃ c : ℕ, capacity = .int c) ∧
    a.get? "leaf_radius" = some leafRadius ∧ (∃ x, IsNum I leafRadius x) ∧
    a.get? "pivoting" = some pivoting

/-- The attributes of a cubical cover with `n` intervals in dimension `k` and overlap fraction `p`,
given or the default one, whose other parameters are as documented. -/
def CubAttrs (I : Interp) (k : ℕ) (a : PyDict String Val) (n : ℕ) (p : ℝ) : Prop :=
  ∃ overlap kind leafRadius pivoting, ∃ capacity : ℕ,
    a.get? "n_intervals" = some (.int n) ∧ 1 ≤ n ∧
    a.get? "overlap_frac" = some overlap ∧
    ((overlap = .none ∧ p = defaultOverlap k) ∨ (IsNum I overlap p ∧ 0 < p ∧ p < 1)) ∧
    a.get? "kind" = some (.str kind) ∧ IsKind kind ∧
    a.get? "leaf_capacity" = some (.int capacity) ∧ 1 ≤ capacity ∧
    a.get? "leaf_radius" = some leafRadius ∧ IsNumOrNone I leafRadius ∧
    a.get? "pivoting" = some pivoting

/-- The object is a cubical cover of the standard kind (`std`) or the proximity kind: one of the
two classes, or a `CubicalCover` with that `algorithm`. -/
def IsCubObject (o : Obj) : Bool → Prop
  | true => o.cls = "StandardCubicalCover" ∨
      (o.cls = "CubicalCover" ∧ o.attrs.get? "algorithm" = some (.str "standard"))
  | false => o.cls = "ProximityCubicalCover" ∨
      (o.cls = "CubicalCover" ∧ o.attrs.get? "algorithm" = some (.str "proximity"))

/-- `g` is the Mapper graph of `Y` for a list of regions: one node per region, numbered in
order, whose `ids` are the positions of the rows in the region, in increasing order, and whose
`size` is their number, which is not zero; two different nodes are adjacent exactly if some
row is in both regions, and only nodes are adjacent. -/
structure IsRegionGraph {T : Type} (g : NxGraph) (Y : List T) (regions : List (T → Prop)) : Prop where
  node : ∀ u, g.IsNode u ↔ ∃ c : ℕ, c < regions.length ∧ u = c
  attr : ∀ (c : ℕ) P, regions[c]? = some P → ∃ ids,
    g.nodes.get? c = some ⟨some ids.length, some ids⟩ ∧ ids ≠ [] ∧ ids.Pairwise (· < ·) ∧
      ListsExactly Y P ids
  adj : ∀ (c c' : ℕ) P P', regions[c]? = some P → regions[c']? = some P' →
    (g.Adj c c' ↔ c ≠ c' ∧ ∃ z ∈ Y, P z ∧ P' z)
  ends : ∀ u v, g.Adj u v → g.IsNode u ∧ g.IsNode v

/-- Every row is in some region. -/
def RegionsCover {T : Type} (Y : List T) (regions : List (T → Prop)) : Prop :=
  ∀ z ∈ Y, ∃ P ∈ regions, P z

/-- Two rows are in one region. -/
def InOneRegion {T : Type} (Y : List T) (regions : List (T → Prop)) (i j : ℕ) : Prop :=
  ∃ P ∈ regions, ∃ zi zj, Y[i]? = some zi ∧ Y[j]? = some zj ∧ P zi ∧ P zj

/-- The open ball of radius `r` around `x`. -/
def openBall {T : Type} (d : T → T → ℝ) (r : ℝ) (x : T) : T → Prop := fun z => d x z < r

/-- `centres` are rows of `Y` at mutual distance at least `r`, such that every row is nearer
than `r` to one of them. -/
def IsNet {T : Type} (d : T → T → ℝ) (r : ℝ) (Y : List T) (centres : List T) : Prop :=
  (∀ x ∈ centres, x ∈ Y) ∧ centres.Pairwise (fun x x' => r ≤ d x x') ∧
    ∀ z ∈ Y, ∃ x ∈ centres, d x z < r

end Verif

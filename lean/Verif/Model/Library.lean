import Verif.Model.Learn
import Verif.Model.Cover
import Verif.Model.Overlap
import Verif.Model.Metrics

/-!
# The covers of `src/tdamapper/cover.py` as objects of the estimators

`Verif.Model.Learn` leaves the classes outside `learn.py` and `core.py` to a `World`. Here
`BallCover`, `KNNCover` and the cubical covers become classes of a world: their attributes
are read, converted to the parameters of `Verif.Model.Cover`, and `apply` runs that model on the
rows of the validated array.

Floating-point numbers, functions and dictionaries held by attributes are opaque values; an
`Interp` says which ones they are. All numbers are exact reals.
-/

set_option autoImplicit false

namespace Verif

/-- What the opaque values are: numbers, metrics (functions of two vectors of any
dimension), dictionaries of keyword arguments. -/
structure Interp where
  num : ℕ → Option ℝ
  metric : ℕ → Option (∀ n : ℕ, RVec n → RVec n → ℝ)
  kwargs : ℕ → Option (PyDict String KwVal)

/-- Reading `self.k`. -/
def attrVal (a : PyDict String Val) (k : String) : Py Val :=
  match a.get? k with
  | some v => .ok v
  | none => .error .attributeError

/-- A value used as a number. -/
noncomputable def Interp.numVal (I : Interp) : Val → Py ℝ
  | .int i => .ok i
  | .opaque n =>
    match I.num n with
    | some x => .ok x
    | none => .error .typeError
  | _ => .error .typeError

/-- A value used as a number of things. Negative numbers, which the constructors accept
and the documentation excludes, are rejected here. -/
def natVal : Val → Py ℕ
  | .int i => if 0 ≤ i then .ok i.toNat else .error .valueError
  | _ => .error .typeError

/-- A value used as a string: any other value equals none of the strings it is
compared with. -/
def strVal : Val → String
  | .str s => s
  | _ => ""

/-- A value that may be `None`. -/
def optVal {α : Type} (f : Val → Py α) : Val → Py (Option α)
  | .none => .ok none
  | v => (f v).map some

/-- `self.metric_params or {}`, cover.py:140 and 243. -/
def Interp.kwargsVal (I : Interp) : Val → Py (PyDict String KwVal)
  | .none => .ok PyDict.empty
  | .opaque n =>
    match I.kwargs n with
    | some kw => .ok kw
    | none => .error .typeError
  | _ => .error .typeError

open Classical in
/-- `get_metric(self.metric, **(self.metric_params or {}))`, cover.py:140 and 243, as a function
with values in the reals. A metric that raises on a pair of rows (`cosine` with a null
vector) makes the whole call raise; in the code only if that pair is compared. -/
noncomputable def Interp.metricVal (I : Interp) {m : ℕ} (rows : List (RVec m)) (metric params : Val) :
    Py (RVec m → RVec m → ℝ) := do
  let kw ← I.kwargsVal params
  match metric with
  | .str s => do
    let f ← getMetric (.name s) kw
    if ∀ x ∈ rows, ∀ y ∈ rows, ∃ d, f x y = .ok d then
      return fun x y => match f x y with
        | .ok d => d
        | .error _ => 0
    else .error .zeroDivisionError
  | .opaque n =>
    match I.metric n with
    | some d => return d m
    | none => .error .valueError
  | _ => .error .valueError

/-- The number that a finite value is. Validated arrays have no other values. -/
noncomputable def floatReal : FloatVal → ℝ
  | .finite x => x
  | _ => 0

/-- A row as a vector of dimension `m`. -/
noncomputable def rowVec (m : ℕ) (a : RealArray) : RVec m :=
  fun i => ((a.vals.map floatReal)[(i : ℕ)]?).getD 0

/-- The number of entries of the rows. -/
def rowWidth (y : List RealArray) : ℕ := ((y.head?).map fun a => a.vals.length).getD 0

/-- The rows of `y` as vectors of dimension `m`, for the metrics: the rows must be one-dimensional arrays
(Numba compiles the metrics for those only). -/
noncomputable def metricRows (m : ℕ) (y : List RealArray) : Py (List (RVec m)) :=
  if y.all fun a => a.shape.length == 1 then .ok (y.map (rowVec m))
  else .error .typeError

/-- cover.py:382 `np.asarray(X).reshape(len(X), -1).astype(float)`: the rows of `y` as vectors of
dimension `m`, where a number counts as a vector of dimension 1. Rows of two or more dimensions are accepted by
`fit`, but not by the searches that `apply` then makes. -/
noncomputable def gridRows (m : ℕ) (y : List RealArray) : Py (List (RVec m)) :=
  if y.all fun a => a.shape.length ≤ 1 then .ok (y.map (rowVec m))
  else .error .valueError

/-- cover.py:84-182 `BallCover.apply`, from the attributes of the object;
`m` is the dimension of the rows. -/
noncomputable def ballApply (I : Interp) (ρ : ℕ → ℕ) (a : PyDict String Val) (m : ℕ)
    (y : List RealArray) : Py (List (List ℕ)) := do
  let rows ← metricRows m y
  let metric ← attrVal a "metric"
  let params ← attrVal a "metric_params"
  let d ← I.metricVal rows metric params
  let radius ← attrVal a "radius"
  let radius ← I.numVal radius
  let kind ← attrVal a "kind"
  let capacity ← attrVal a "leaf_capacity"
  let capacity ← natVal capacity
  let leafRadius ← attrVal a "leaf_radius"
  let leafRadius ← optVal I.numVal leafRadius
  let pivoting ← attrVal a "pivoting"
  BallCover.apply ⟨⟨radius, d, strVal kind, capacity, leafRadius, strVal pivoting⟩, none⟩ ρ rows

/-- cover.py:185-280 `KNNCover.apply`, from the attributes of the object;
`m` is the dimension of the rows. -/
noncomputable def knnApply (I : Interp) (ρ : ℕ → ℕ) (a : PyDict String Val) (m : ℕ)
    (y : List RealArray) : Py (List (List ℕ)) := do
  let rows ← metricRows m y
  let metric ← attrVal a "metric"
  let params ← attrVal a "metric_params"
  let d ← I.metricVal rows metric params
  let neighbors ← attrVal a "neighbors"
  let neighbors ← natVal neighbors
  let kind ← attrVal a "kind"
  let capacity ← attrVal a "leaf_capacity"
  let capacity ← optVal natVal capacity
  let leafRadius ← attrVal a "leaf_radius"
  let leafRadius ← I.numVal leafRadius
  let pivoting ← attrVal a "pivoting"
  KnnCover.apply ⟨⟨neighbors, d, strVal kind, capacity, leafRadius, strVal pivoting⟩, none⟩ ρ rows

/-- cover.py:318-330: the parameters of a cubical cover, from the attributes. -/
noncomputable def cubParams (I : Interp) (a : PyDict String Val) : Py (CubParams ℝ) := do
  let n ← attrVal a "n_intervals"
  let n ← natVal n
  let overlap ← attrVal a "overlap_frac"
  let overlap ← optVal I.numVal overlap
  let kind ← attrVal a "kind"
  let capacity ← attrVal a "leaf_capacity"
  let capacity ← natVal capacity
  let leafRadius ← attrVal a "leaf_radius"
  let leafRadius ← optVal I.numVal leafRadius
  let pivoting ← attrVal a "pivoting"
  return ⟨n, overlap, strVal kind, capacity, leafRadius, strVal pivoting⟩

/-- cover.py:651-661 `CubicalCover.apply`, from the attributes of the object;
`m` is the dimension of the rows. -/
noncomputable def cubicalApply (I : Interp) (ρ : ℕ → ℕ) (a : PyDict String Val) (m : ℕ)
    (y : List RealArray) : Py (List (List ℕ)) := do
  let rows ← gridRows m y
  let p ← cubParams I a
  let algorithm ← attrVal a "algorithm"
  CubicalCover.apply defaultOverlap ⟨p, strVal algorithm, none⟩ ρ rows

/-- cover.py:467-478 `ProximityCubicalCover.apply`, from the attributes of the object;
`m` is the dimension of the rows. -/
noncomputable def proximityApply (I : Interp) (ρ : ℕ → ℕ) (a : PyDict String Val) (m : ℕ)
    (y : List RealArray) : Py (List (List ℕ)) := do
  let rows ← gridRows m y
  let p ← cubParams I a
  CubCover.applyProximity defaultOverlap ⟨p, none⟩ ρ rows

/-- cover.py:535-554 `StandardCubicalCover.apply`, from the attributes of the object;
`m` is the dimension of the rows. -/
noncomputable def standardApply (I : Interp) (ρ : ℕ → ℕ) (a : PyDict String Val) (m : ℕ)
    (y : List RealArray) : Py (List (List ℕ)) := do
  let rows ← gridRows m y
  let p ← cubParams I a
  CubCover.applyStandard defaultOverlap ⟨p, none⟩ ρ rows

/-- The names found on the cover classes. -/
def coverMembers : List String := ["apply", "search"] ++ commonMembers

/-- cover.py:111-127: a new `BallCover()`. (The float `1.0` is the number 1.) -/
def ballInit : PyDict String Val := ⟨[("radius", .int 1), ("metric", .str "euclidean"),
  ("metric_params", .none), ("kind", .str "flat"), ("leaf_capacity", .int 1),
  ("leaf_radius", .none), ("pivoting", .str "disabled")]⟩

/-- cover.py:213-230: a new `KNNCover()`. -/
def knnInit : PyDict String Val := ⟨[("neighbors", .int 1), ("metric", .str "euclidean"),
  ("metric_params", .none), ("kind", .str "flat"), ("leaf_capacity", .none),
  ("leaf_radius", .int 0), ("pivoting", .str "disabled")]⟩

/-- cover.py:318-330: a new `ProximityCubicalCover()` or `StandardCubicalCover()`. -/
def baseCubicalInit : PyDict String Val := ⟨[("n_intervals", .int 1), ("overlap_frac", .none),
  ("kind", .str "flat"), ("leaf_capacity", .int 1), ("leaf_radius", .none),
  ("pivoting", .str "disabled")]⟩

/-- cover.py:591-608: a new `CubicalCover()`. -/
def cubicalInit : PyDict String Val := ⟨[("n_intervals", .int 1), ("overlap_frac", .none),
  ("algorithm", .str "proximity"), ("kind", .str "flat"), ("leaf_capacity", .int 1),
  ("leaf_radius", .none), ("pivoting", .str "disabled")]⟩

/-- The world with the covers of the library. Other classes are those of `base`. The attributes
that `apply` assigns are private; a single one stands for them, as clones do not copy them. The
`fit` methods of covers are not called by the estimators. `ρ` supplies random draws. -/
noncomputable def library (base : World) (I : Interp) (ρ : ℕ → ℕ) : World where
  others := fun cls =>
    if cls = "BallCover" then some ⟨coverMembers, ballInit⟩
    else if cls = "KNNCover" then some ⟨coverMembers, knnInit⟩
    else if cls = "CubicalCover" then some ⟨coverMembers, cubicalInit⟩
    else if cls = "ProximityCubicalCover" then some ⟨coverMembers, baseCubicalInit⟩
    else if cls = "StandardCubicalCover" then some ⟨coverMembers, baseCubicalInit⟩
    else base.others cls
  fit := base.fit
  apply := fun cls a y =>
    if cls = "BallCover" then (a.set "_fitted" (.opaque 0), ballApply I ρ a (rowWidth y) y)
    else if cls = "KNNCover" then (a.set "_fitted" (.opaque 0), knnApply I ρ a (rowWidth y) y)
    else if cls = "CubicalCover" then (a.set "_fitted" (.opaque 0), cubicalApply I ρ a (rowWidth y) y)
    else if cls = "ProximityCubicalCover" then (a.set "_fitted" (.opaque 0), proximityApply I ρ a (rowWidth y) y)
    else if cls = "StandardCubicalCover" then (a.set "_fitted" (.opaque 0), standardApply I ρ a (rowWidth y) y)
    else base.apply cls a y
  setOrder := base.setOrder

end Verif

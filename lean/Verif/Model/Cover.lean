import Verif.Model.VPTree
import Verif.Model.Core
import Mathlib.Algebra.Order.Field.Basic
import Mathlib.Algebra.Order.Floor.Ring
import Mathlib.Data.Int.Notation

/-!
# Model of `src/tdamapper/cover.py`

Cover objects are values: `fit` returns the fitted object. The attributes that
`fit` assigns are bundled in an optional record, absent before the first `fit`;
reading one of them then raises `AttributeError`, as in Python, where the class
body only annotates them. The state an object is left in when `fit` itself
raises is modelled in `Verif.Model.CoverState`.

Simplifications: a `metric` is a callable (names are resolved by `get_metric`,
modelled in `Verif.Model.Metrics`); the numbers of the cubical covers are exact
elements of an ordered field instead of floating-point numbers (with rounded
operations: `Verif.Model.CubicalFloat`); generators are lists (as suspended loops:
`Verif.Model.CoverState`).
-/

set_option autoImplicit false

namespace Verif

section Ball

variable {T S R : Type}

/-- cover.py:32-74 `_Pullback`: `dist(x, y) = metric(fun(x), fun(y))`. -/
def pullback (f : T → S) (metric : S → S → R) (x y : T) : R := metric (f x) (f y)

/-- cover.py:77-81 `_snd`. -/
def snd (x : ℤ × T) : T := x.2

/-- cover.py:142 `list(enumerate(X))`, with the counter of `enumerate` starting
at `i`. -/
def enumFrom (i : Nat) : List T → List (ℤ × T)
  | [] => []
  | x :: xs => ((i : ℤ), x) :: enumFrom (i + 1) xs

/-- cover.py:142 `list(enumerate(X))`. -/
def enumerate (X : List T) : List (ℤ × T) := enumFrom 0 X

/-- cover.py:169 `[x for (x, _) in neighs]`. The identifiers of stored entries
are the naturals produced by `enumerate`, and are read back as such. -/
def firsts (neighs : List (ℤ × T)) : List Nat := neighs.map (fun e => e.1.toNat)

/-- Python's `a or b` for an optional number: `None` and zero are false. -/
def numOr [Zero R] [DecidableEq R] (a : Option R) (b : R) : R :=
  match a with
  | none => b
  | some v => if v = 0 then b else v

variable [LE R] [LT R] [DecidableLE R] [DecidableLT R] [DecidableEq R] [Zero R] [Neg R]
  [Sub R]

/-- cover.py:111-127 `BallCover.__init__`: the parameters. -/
structure BallParams (T R : Type) where
  radius : R
  metric : T → T → R
  kind : String
  leafCapacity : Nat
  leafRadius : Option R
  pivoting : String

/-- cover.py:107-109: the attributes assigned by `fit`. -/
structure BallFit (T R : Type) where
  radius : R
  vptree : VPTree (ℤ × T) R

/-- cover.py:84-109: a `BallCover` object. -/
structure BallCover (T R : Type) where
  params : BallParams T R
  fitted : Option (BallFit T R)

/-- cover.py:129-151 `BallCover.fit`. `ρ` supplies the random draws of the
tree construction. -/
def BallCover.fit (c : BallCover T R) (ρ : Nat → Nat) (X : List T) : Py (BallCover T R) := do
  let t ← VPTree.build (enumerate X) (pullback snd c.params.metric) c.params.kind
    ⟨c.params.leafCapacity, numOr c.params.leafRadius c.params.radius, c.params.pivoting⟩ ρ
  return ⟨c.params, some ⟨c.params.radius, t⟩⟩

/-- cover.py:153-169 `BallCover.search`. -/
def BallCover.search (c : BallCover T R) (x : T) : Py (List Nat) :=
  match c.fitted with
  | none => .error .attributeError
  | some f => do
    let neighs ← f.vptree.ballSearch (-1, x) f.radius false
    return firsts neighs

/-- cover.py:171-182 `BallCover.apply`. -/
def BallCover.apply (c : BallCover T R) (ρ : Nat → Nat) (X : List T) : Py (List (List Nat)) :=
  proximityNet (c.fit ρ) BallCover.search X

/-- cover.py:213-230 `KNNCover.__init__`: the parameters. -/
structure KnnParams (T R : Type) where
  neighbors : Nat
  metric : T → T → R
  kind : String
  leafCapacity : Option Nat
  leafRadius : R
  pivoting : String

/-- cover.py:209-211: the attributes assigned by `fit`. -/
structure KnnFit (T R : Type) where
  neighbors : Nat
  vptree : VPTree (ℤ × T) R

/-- cover.py:185-211: a `KNNCover` object. -/
structure KnnCover (T R : Type) where
  params : KnnParams T R
  fitted : Option (KnnFit T R)

/-- cover.py:232-254 `KNNCover.fit`. -/
def KnnCover.fit (c : KnnCover T R) (ρ : Nat → Nat) (X : List T) : Py (KnnCover T R) := do
  let t ← VPTree.build (enumerate X) (pullback snd c.params.metric) c.params.kind
    ⟨numOr c.params.leafCapacity c.params.neighbors, c.params.leafRadius, c.params.pivoting⟩ ρ
  return ⟨c.params, some ⟨c.params.neighbors, t⟩⟩

/-- cover.py:256-268 `KNNCover.search`. -/
def KnnCover.search (c : KnnCover T R) (x : T) : Py (List Nat) :=
  match c.fitted with
  | none => .error .attributeError
  | some f => do
    let neighs ← f.vptree.knnSearch (-1, x) f.neighbors
    return firsts neighs

/-- cover.py:269-280 `KNNCover.apply`. -/
def KnnCover.apply (c : KnnCover T R) (ρ : Nat → Nat) (X : List T) : Py (List (List Nat)) :=
  proximityNet (c.fit ρ) KnnCover.search X

end Ball

section Cubical

variable {R : Type} [Field R] [LinearOrder R] [FloorRing R] {m : Nat}

/-- _metrics.py:20-24 `chebyshev`: `np.linalg.norm(x - y, ord=np.inf)`, the
largest absolute coordinate difference. Vectors have a fixed dimension `m`. -/
def chebyshevDist (x y : Fin m → R) : R :=
  (List.ofFn (fun i => |x i - y i|)).foldl max 0

/-- cover.py:318-330 `BaseCubicalCover.__init__`: the parameters. -/
structure CubParams (R : Type) where
  nIntervals : Nat
  overlapFrac : Option R
  kind : String
  leafCapacity : Nat
  leafRadius : Option R
  pivoting : String

/-- cover.py:310-315: the attributes assigned by `fit`, except `_cover`:
`lo` and `hi` are `_min` and `_max`. -/
structure Grid (m : Nat) (R : Type) where
  overlapFrac : R
  nIntervals : Nat
  lo : Fin m → R
  hi : Fin m → R
  delta : Fin m → R

/-- cover.py:310-315: the attributes assigned by `fit`; `warned` records
whether this `fit` called `warn_user`. -/
structure CubFit (m : Nat) (R : Type) where
  grid : Grid m R
  cover : BallCover (Fin m → R) R
  warned : Bool

/-- cover.py:283-315: a `BaseCubicalCover` object. -/
structure CubCover (m : Nat) (R : Type) where
  params : CubParams R
  fitted : Option (CubFit m R)

/-- cover.py:351-352 `_gamma_n`. -/
def Grid.gamma (g : Grid m R) (x : Fin m → R) : Fin m → R :=
  fun i => g.nIntervals * (x i - g.lo i) / g.delta i

/-- cover.py:354-355 `_gamma_n_inv`. -/
def Grid.gammaInv (g : Grid m R) (x : Fin m → R) : Fin m → R :=
  fun i => g.lo i + g.delta i * x i / g.nIntervals

/-- cover.py:344-345 `_offset`. -/
def Grid.offset (g : Grid m R) (x : Fin m → R) : Fin m → ℤ :=
  fun i => min ((g.nIntervals : ℤ) - 1) ⌊g.gamma x i⌋

/-- cover.py:347-349 `_phi`. -/
def Grid.phi (g : Grid m R) (x : Fin m → R) : Fin m → R :=
  g.gammaInv (fun i => 1 / 2 + (g.offset x i : R))

/-- cover.py:332-338 `_get_center`: the tuple of offsets and the center. -/
def Grid.getCenter (g : Grid m R) (x : Fin m → R) : List ℤ × (Fin m → R) :=
  (List.ofFn (g.offset x), g.phi x)

/-- cover.py:363 `np.finfo(np.float64).eps`. -/
def floatEps : R := 1 / 2 ^ 52

/-- cover.py:364 `np.min(X, axis=0)` on the rows `x :: X`. -/
def colMin (x : Fin m → R) (X : List (Fin m → R)) : Fin m → R :=
  fun i => X.foldl (fun a y => min a (y i)) (x i)

/-- cover.py:365 `np.max(X, axis=0)` on the rows `x :: X`. -/
def colMax (x : Fin m → R) (X : List (Fin m → R)) : Fin m → R :=
  fun i => X.foldl (fun a y => max a (y i)) (x i)

/-- cover.py:357-368 `_get_bounds`. -/
def getBounds (n : Nat) (X : List (Fin m → R)) :
    Py ((Fin m → R) × (Fin m → R) × (Fin m → R)) :=
  match X with
  | [] => .error .valueError
  | x :: xs =>
    let mn := colMin x xs
    let mx := colMax x xs
    let delta := fun i =>
      let w := mx i - mn i
      if w ≥ -floatEps ∧ w ≤ floatEps then (n : R) else w
    .ok (mn, mx, delta)

/-- cover.py:391 `1.0 / (2.0 - 2.0 * overlap_frac)`, a division of Python
floats: a zero denominator raises. -/
def boxRadius (p : R) : Py R :=
  if 2 - 2 * p = 0 then .error .zeroDivisionError else .ok (1 / (2 - 2 * p))

/-- cover.py:370-404 `BaseCubicalCover.fit`. `dflt dim` is the value of
`_get_overlap_frac(dim, 0.5)`, modelled by `defaultOverlap` over the reals.
Rows are vectors of the fixed dimension `m`; the reshaping and conversion to
floats of line 382 are not modelled. -/
def CubCover.fit (dflt : Nat → R) (c : CubCover m R) (ρ : Nat → Nat) (X : List (Fin m → R)) :
    Py (CubCover m R) :=
  if X.length = 0 then .ok c
  else do
    let p := c.params.overlapFrac.getD (dflt m)
    let n := c.params.nIntervals
    if p ≤ 0 then .error .valueError
    else do
      let warned := decide (1 / 2 < p)
      let (mn, mx, delta) ← getBounds n X
      let g : Grid m R := ⟨p, n, mn, mx, delta⟩
      let radius ← boxRadius p
      let b : BallCover (Fin m → R) R :=
        ⟨⟨radius, pullback g.gamma chebyshevDist, c.params.kind, c.params.leafCapacity,
          c.params.leafRadius, c.params.pivoting⟩, none⟩
      let b ← b.fit ρ X
      return ⟨c.params, some ⟨g, b, warned⟩⟩

/-- cover.py:406-417 `BaseCubicalCover.search`. -/
def CubCover.search (c : CubCover m R) (x : Fin m → R) : Py (List Nat) :=
  match c.fitted with
  | none => .error .attributeError
  | some f => f.cover.search (f.grid.phi x)

/-- cover.py:467-478 `ProximityCubicalCover.apply`. -/
def CubCover.applyProximity (dflt : Nat → R) (c : CubCover m R) (ρ : Nat → Nat)
    (X : List (Fin m → R)) : Py (List (List Nat)) :=
  proximityNet (c.fit dflt ρ) CubCover.search X

/-- cover.py:525-533 `_landmarks`: one landmark per tuple of offsets, the first
row having it. Before a fit on non-empty data the offsets cannot be computed. -/
def landmarksLoop (c : CubCover m R) (lm : PyDict (List ℤ) (Fin m → R)) :
    List (Fin m → R) → Py (PyDict (List ℤ) (Fin m → R))
  | [] => .ok lm
  | x :: xs =>
    match c.fitted with
    | none => .error .attributeError
    | some f =>
      let key := (f.grid.getCenter x).1
      if lm.contains key then landmarksLoop c lm xs
      else landmarksLoop c (lm.set key x) xs

/-- cover.py:547-554: the loop of `StandardCubicalCover.apply`, with `steps`
bounding its iterations. -/
def standardLoop (c : CubCover m R) : Nat → PyDict (List ℤ) (Fin m → R) → Py (List (List Nat))
  | 0, _ => .error .diverge
  | steps + 1, lm =>
    if lm.items.isEmpty then .ok []
    else do
      let ((_, x), lm') ← lm.popitem
      let ids ← c.search x
      let rest ← standardLoop c steps lm'
      return (if ids.isEmpty then rest else ids :: rest)

/-- cover.py:535-554 `StandardCubicalCover.apply`. -/
def CubCover.applyStandard (dflt : Nat → R) (c : CubCover m R) (ρ : Nat → Nat)
    (X : List (Fin m → R)) : Py (List (List Nat)) := do
  let c ← c.fit dflt ρ X
  let lm ← landmarksLoop c PyDict.empty X
  standardLoop c (lm.items.length + 1) lm

/-- The two delegate classes of `CubicalCover`. -/
inductive CubKind where
  | proximity
  | standard
  deriving DecidableEq

/-- cover.py:557-608: a `CubicalCover` object: its parameters and the delegate
assigned by `fit` and `apply`. -/
structure CubicalCover (m : Nat) (R : Type) where
  params : CubParams R
  algorithm : String
  delegate : Option (CubKind × CubCover m R)

/-- cover.py:610-625 `_get_cubical_cover`. -/
def CubicalCover.getDelegate (c : CubicalCover m R) : Py (CubKind × CubCover m R) :=
  if c.algorithm = "proximity" then .ok (.proximity, ⟨c.params, none⟩)
  else if c.algorithm = "standard" then .ok (.standard, ⟨c.params, none⟩)
  else .error .valueError

/-- cover.py:627-638 `CubicalCover.fit`. -/
def CubicalCover.fit (dflt : Nat → R) (c : CubicalCover m R) (ρ : Nat → Nat)
    (X : List (Fin m → R)) : Py (CubicalCover m R) := do
  let (k, d) ← c.getDelegate
  let d ← d.fit dflt ρ X
  return { c with delegate := some (k, d) }

/-- cover.py:640-649 `CubicalCover.search`. -/
def CubicalCover.search (c : CubicalCover m R) (x : Fin m → R) : Py (List Nat) :=
  match c.delegate with
  | none => .error .attributeError
  | some (_, d) => d.search x

/-- cover.py:651-661 `CubicalCover.apply`. -/
def CubicalCover.apply (dflt : Nat → R) (c : CubicalCover m R) (ρ : Nat → Nat)
    (X : List (Fin m → R)) : Py (List (List Nat)) := do
  let (k, d) ← c.getDelegate
  match k with
  | .proximity => d.applyProximity dflt ρ X
  | .standard => d.applyStandard dflt ρ X

end Cubical

end Verif

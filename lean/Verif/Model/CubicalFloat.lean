import Verif.Model.Cover

/-!
# Model of the cubical covers of `src/tdamapper/cover.py` with machine arithmetic

The code of `Verif.Model.Cover`, section `Cubical`, with numbers whose operations may round:
every arithmetic operation of the source is one operation of the class `Machine`, in the order
in which Python and NumPy evaluate it. With exact operations the two models
agree (`Verif.Proof.CubicalFloat`).

Simplifications: infinities and NaN do not arise, the two zeros are identified; offsets are
kept as integers (in the source they are floats with integer values).
-/

set_option autoImplicit false

namespace Verif

/-- The operations on numbers used by the cubical covers: `ofInt` converts an integer,
`floor` is `np.floor`, `half` is `0.5` and `eps` is `np.finfo(np.float64).eps`. -/
class Machine (R : Type) extends LinearOrder R, Zero R, Neg R, Add R, Sub R, Mul R, Div R where
  ofInt : ℤ → R
  floor : R → ℤ
  half : R
  eps : R

variable {R : Type} [Machine R] {m : ℕ}

/-- utils/_metrics.py:20-24 `chebyshev`: `np.linalg.norm(x - y, ord=np.inf)`. -/
def machChebyshev (x y : Fin m → R) : R :=
  (List.ofFn (fun i => pyAbs (x i - y i))).foldl max 0

/-- cover.py:351-352 `_gamma_n`. -/
def Grid.machGamma (g : Grid m R) (x : Fin m → R) : Fin m → R :=
  fun i => Machine.ofInt g.nIntervals * (x i - g.lo i) / g.delta i

/-- cover.py:354-355 `_gamma_n_inv`. -/
def Grid.machGammaInv (g : Grid m R) (x : Fin m → R) : Fin m → R :=
  fun i => g.lo i + g.delta i * x i / Machine.ofInt g.nIntervals

/-- cover.py:344-345 `_offset`. -/
def Grid.machOffset (g : Grid m R) (x : Fin m → R) : Fin m → ℤ :=
  fun i => min ((g.nIntervals : ℤ) - 1) (Machine.floor (g.machGamma x i))

/-- cover.py:347-349 `_phi`. -/
def Grid.machPhi (g : Grid m R) (x : Fin m → R) : Fin m → R :=
  g.machGammaInv (fun i => Machine.half + Machine.ofInt (g.machOffset x i))

/-- cover.py:364-367: the smallest and largest entry of a column, their difference, and
what it is replaced by when it is within `eps`. -/
def machDelta (n : ℕ) (lo hi : R) : R :=
  let w := hi - lo
  if w ≥ -Machine.eps ∧ w ≤ Machine.eps then Machine.ofInt n else w

/-- cover.py:357-368 `_get_bounds`. -/
def machBounds (n : ℕ) (X : List (Fin m → R)) : Py ((Fin m → R) × (Fin m → R) × (Fin m → R)) :=
  match X with
  | [] => .error .valueError
  | x :: xs =>
    let mn := fun i => xs.foldl (fun a y => min a (y i)) (x i)
    let mx := fun i => xs.foldl (fun a y => max a (y i)) (x i)
    .ok (mn, mx, fun i => machDelta n (mn i) (mx i))

/-- cover.py:391 `1.0 / (2.0 - 2.0 * overlap_frac)`. -/
def machRadius (p : R) : Py R :=
  let w := Machine.ofInt 2 - Machine.ofInt 2 * p
  if w = 0 then .error .zeroDivisionError else .ok (Machine.ofInt 1 / w)

/-- cover.py:370-404 `BaseCubicalCover.fit`; `dflt dim` is the value of
`_get_overlap_frac(dim, 0.5)`. -/
def CubCover.machFit (dflt : ℕ → R) (c : CubCover m R) (ρ : ℕ → ℕ) (X : List (Fin m → R)) :
    Py (CubCover m R) :=
  if X.length = 0 then .ok c
  else do
    let p := c.params.overlapFrac.getD (dflt m)
    let n := c.params.nIntervals
    if p ≤ 0 then .error .valueError
    else do
      let warned := decide (Machine.half < p)
      let (mn, mx, delta) ← machBounds n X
      let g : Grid m R := ⟨p, n, mn, mx, delta⟩
      let radius ← machRadius p
      let b : BallCover (Fin m → R) R :=
        ⟨⟨radius, pullback g.machGamma machChebyshev, c.params.kind, c.params.leafCapacity,
          c.params.leafRadius, c.params.pivoting⟩, none⟩
      let b ← b.fit ρ X
      return ⟨c.params, some ⟨g, b, warned⟩⟩

/-- cover.py:406-417 `BaseCubicalCover.search`. -/
def CubCover.machSearch (c : CubCover m R) (x : Fin m → R) : Py (List ℕ) :=
  match c.fitted with
  | none => .error .attributeError
  | some f => f.cover.search (f.grid.machPhi x)

/-- cover.py:467-478 `ProximityCubicalCover.apply`. -/
def CubCover.machProximity (dflt : ℕ → R) (c : CubCover m R) (ρ : ℕ → ℕ) (X : List (Fin m → R)) :
    Py (List (List ℕ)) :=
  proximityNet (c.machFit dflt ρ) CubCover.machSearch X

/-- cover.py:525-533 `_landmarks`. -/
def machLandmarks (c : CubCover m R) (lm : PyDict (List ℤ) (Fin m → R)) :
    List (Fin m → R) → Py (PyDict (List ℤ) (Fin m → R))
  | [] => .ok lm
  | x :: xs =>
    match c.fitted with
    | none => .error .attributeError
    | some f =>
      let key := List.ofFn (f.grid.machOffset x)
      if lm.contains key then machLandmarks c lm xs
      else machLandmarks c (lm.set key x) xs

/-- cover.py:547-554: the loop of `StandardCubicalCover.apply`, with `steps` bounding its
iterations. -/
def machStandardLoop (c : CubCover m R) : ℕ → PyDict (List ℤ) (Fin m → R) → Py (List (List ℕ))
  | 0, _ => .error .diverge
  | steps + 1, lm =>
    if lm.items.isEmpty then .ok []
    else do
      let ((_, x), lm') ← lm.popitem
      let ids ← c.machSearch x
      let rest ← machStandardLoop c steps lm'
      return (if ids.isEmpty then rest else ids :: rest)

/-- cover.py:535-554 `StandardCubicalCover.apply`. -/
def CubCover.machStandard (dflt : ℕ → R) (c : CubCover m R) (ρ : ℕ → ℕ) (X : List (Fin m → R)) :
    Py (List (List ℕ)) := do
  let c ← c.machFit dflt ρ X
  let lm ← machLandmarks c PyDict.empty X
  machStandardLoop c (lm.items.length + 1) lm

end Verif

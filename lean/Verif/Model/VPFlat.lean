import Verif.Model.VPArray
import Verif.Model.Heap
import Mathlib.Order.Defs.LinearOrder

/-!
# Model of `src/tdamapper/utils/vptree_flat/`

The Python lists used as stacks are lists whose head is the top. Loops carry
fuel; the fuel given by the top-level functions is proved sufficient.

Distances are values of a type with comparisons, zero, negation and subtraction, of which
the model assumes no law: exact numbers, rounded ones and ones with NaN are all covered.
-/

namespace Verif

variable {T R : Type}

section
variable [LT R] [DecidableLT R] [Zero R]

/-- vptree_flat/builder.py:33-37: initial arrays. -/
def flatInit (X : List T) : VPArray T R :=
  ⟨X, X.map (fun _ => 0), List.range X.length, some (X.map (fun _ => false))⟩

/-- vptree_flat/builder.py:100-115, the loop of `_build_iter`. -/
def flatBuildLoop (d : T → T → R) (ρ : Nat → Nat) (p : VPParams R) :
    (fuel : Nat) → List (Nat × Nat) → BuildState T R → Py (BuildState T R)
  | 0, _, _ => .error .diverge
  | _ + 1, [], st => .ok st
  | fuel + 1, (start, end_) :: stack, st => do
    let mid := vpMid start end_
    let st ← update d ρ p.pivoting start end_ st
    let arr ← st.arr.partition (start + 1) end_ mid
    let vRadius ← arr.getDistance mid
    if end_ - start > 2 * p.leafCapacity ∧ p.leafRadius < vRadius then
      let arr ← arr.setDistance start vRadius
      let arr ← arr.setTerminal start false
      flatBuildLoop d ρ p fuel ((start + 1, mid) :: (mid, end_) :: stack) { st with arr }
    else
      let arr ← arr.setDistance start vRadius
      let arr ← arr.setTerminal start true
      flatBuildLoop d ρ p fuel stack { st with arr }

/-- vptree_flat/builder.py:88-96 `build` (called from vptree_flat/vptree.py:56). -/
def flatBuild (d : T → T → R) (ρ : Nat → Nat) (p : VPParams R) (X : List T) :
    Py (VPArray T R) :=
  let arr := flatInit X
  if arr.size > 0 then do
    let st ← flatBuildLoop d ρ p (2 * arr.size + 2) [(0, arr.size)] ⟨arr, 0⟩
    return st.arr
  else .ok arr

end

section search
variable [LE R] [LT R] [DecidableLE R] [DecidableLT R] [Zero R] [Neg R] [Sub R]

/-- Python's `abs` (vptree_flat/ball_search.py:76, knn_search.py:90,
vptree_hier/ball_search.py:82, knn_search.py:89): a NaN is returned unchanged. -/
def pyAbs (x : R) : R := if x < 0 then -x else x

/-- vptree_flat/ball_search.py:47-50 `_inside` [vptree_hier/ball_search.py:53-56]. -/
def insideBall (eps : R) (inclusive : Bool) (dist : R) : Bool :=
  if inclusive then decide (dist ≤ eps) else decide (dist < eps)

/-- vptree_flat/ball_search.py:52-79, the loop of `_search_iter`. -/
def flatBallLoop (d : T → T → R) (a : VPArray T R) (point : T) (eps : R) (inclusive : Bool) :
    (fuel : Nat) → List (Nat × Nat) → List T → Py (List T)
  | 0, _, _ => .error .diverge
  | _ + 1, [], result => .ok result
  | fuel + 1, (start, end_) :: stack, result => do
    let vRadius ← a.getDistance start
    let vPoint ← a.getPoint start
    let isTerminal ← a.isTerminal start
    if isTerminal then
      let xs ← a.getPoints start end_
      let result := result ++ xs.filter (fun x => insideBall eps inclusive (d point x))
      flatBallLoop d a point eps inclusive fuel stack result
    else
      let dist := d point vPoint
      let mid := vpMid start end_
      let result := if insideBall eps inclusive dist then result ++ [vPoint] else result
      let (fst, snd) :=
        if dist ≤ vRadius then ((start + 1, mid), (mid, end_))
        else ((mid, end_), (start + 1, mid))
      let stack := if pyAbs (dist - vRadius) ≤ eps then snd :: stack else stack
      flatBallLoop d a point eps inclusive fuel (fst :: stack) result

/-- vptree_flat/ball_search.py:39-45 `search`. -/
def flatBallSearch (d : T → T → R) (a : VPArray T R) (point : T) (eps : R)
    (inclusive : Bool) : Py (List T) :=
  flatBallLoop d a point eps inclusive (2 * a.size + 2) [(0, a.size)] []

/-- vptree_flat/knn_search.py:41-42 and 59-60:
`while len(heap) > neighbors: heap.pop()`. -/
def shrinkHeap (k : Nat) : (fuel : Nat) → MaxHeap R T → Py (MaxHeap R T)
  | 0, _ => .error .diverge
  | fuel + 1, h =>
    if h.len > k then do
      let (_, h) ← h.pop
      shrinkHeap k fuel h
    else .ok h

/-- vptree_flat/knn_search.py:29-38: `_radius` (`none` is `inf`) and `_result`. -/
structure KnnState (T R : Type) where
  radius : Option R
  result : MaxHeap R T

/-- `x >= r` for a possibly infinite `r`. -/
def geRadius (x : R) : Option R → Bool
  | none => false
  | some r => decide (r ≤ x)

/-- `r > x` for a possibly infinite `r`. -/
def radiusGt (r : Option R) (x : R) : Bool :=
  match r with
  | none => true
  | some r => decide (x < r)

/-- vptree_flat/knn_search.py:54-65 `_process`. -/
def knnProcess (d : T → T → R) (point : T) (k : Nat) (st : KnnState T R) (x : T) :
    Py (R × KnnState T R) := do
  let dist := d point x
  if geRadius dist st.radius then return (dist, st)
  let h ← st.result.add dist x
  let h ← shrinkHeap k (h.len + 1) h
  if h.len = k then
    match ← h.top with
    | some (r, _) => return (dist, ⟨some r, h⟩)
    | none => return (dist, ⟨st.radius, h⟩)
  else return (dist, ⟨st.radius, h⟩)

/-- vptree_flat/knn_search.py:78-79: process every point of a leaf. -/
def knnProcessAll (d : T → T → R) (point : T) (k : Nat) :
    List T → KnnState T R → Py (KnnState T R)
  | [], st => .ok st
  | x :: xs, st => do
    let (_, st) ← knnProcess d point k st x
    knnProcessAll d point k xs st

/-- vptree_flat/knn_search.py:10-11: `_PRE`, `_POST`. -/
inductive KnnAction where
  | pre
  | post
  deriving DecidableEq

/-- vptree_flat/knn_search.py:67-95, the loop of `_search_iter`. -/
def flatKnnLoop (d : T → T → R) (a : VPArray T R) (point : T) (k : Nat) :
    (fuel : Nat) → List (Nat × Nat × R × KnnAction) → KnnState T R → Py (KnnState T R)
  | 0, _, _ => .error .diverge
  | _ + 1, [], st => .ok st
  | fuel + 1, (start, end_, thr, action) :: stack, st => do
    let vRadius ← a.getDistance start
    let vPoint ← a.getPoint start
    let isTerminal ← a.isTerminal start
    if isTerminal then
      let xs ← a.getPoints start end_
      let st ← knnProcessAll d point k xs st
      flatKnnLoop d a point k fuel stack st
    else
      match action with
      | .pre =>
        let mid := vpMid start end_
        let (dist, st) ← knnProcess d point k st vPoint
        let ((fs, fe), (ss, se)) :=
          if dist ≤ vRadius then ((start + 1, mid), (mid, end_))
          else ((mid, end_), (start + 1, mid))
        flatKnnLoop d a point k fuel
          ((fs, fe, 0, .pre) :: (ss, se, pyAbs (vRadius - dist), .post) :: stack) st
      | .post =>
        if radiusGt st.radius thr then
          flatKnnLoop d a point k fuel ((start, end_, 0, .pre) :: stack) st
        else flatKnnLoop d a point k fuel stack st

/-- vptree_flat/knn_search.py:40-43 `_get_items`. -/
def knnItems (k : Nat) (h : MaxHeap R T) : Py (List T) := do
  let h ← shrinkHeap k (h.len + 1) h
  let (l, _) ← h.toList
  return l.map Prod.snd

/-- vptree_flat/knn_search.py:45-52 `search` (line 68 creates a fresh heap; the
call of `_get_items` at line 95 is repeated at line 52 on the same heap and its
first result is dropped). -/
def flatKnnSearch (d : T → T → R) (a : VPArray T R) (point : T) (k : Nat) : Py (List T) := do
  let st ← flatKnnLoop d a point k (3 * a.size + 3) [(0, a.size, 0, .pre)]
    ⟨none, MaxHeap.init⟩
  knnItems k st.result

end search

end Verif

import Verif.Model.Cover

/-!
# Nearest neighbours with an explicit infinity

The models in `VPFlat` and `VPHier` write `float("inf")`, the radius of a search that has not
found enough neighbours, as `none`, and every distance compares below it. That is right for
finite distances only. Here the radius is a number like any other, `inf`, and it is compared
with the operators of the numbers, so that infinite and NaN distances, and differences of
infinite distances, behave as they do in Python. Everything else is shared with the other
models, line by line.
-/

set_option autoImplicit false

namespace Verif

variable {T R : Type} [LE R] [LT R] [DecidableLE R] [DecidableLT R] [Zero R] [Neg R] [Sub R]

/-- vptree_flat/knn_search.py:29-38: `_radius` and `_result`. -/
structure KnnInfState (T R : Type) where
  radius : R
  result : MaxHeap R T

/-- vptree_flat/knn_search.py:54-65 `_process`. -/
def knnProcessInf (d : T → T → R) (point : T) (k : Nat) (st : KnnInfState T R) (x : T) :
    Py (R × KnnInfState T R) := do
  let dist := d point x
  if st.radius ≤ dist then return (dist, st)
  let h ← st.result.add dist x
  let h ← shrinkHeap k (h.len + 1) h
  if h.len = k then
    match ← h.top with
    | some (r, _) => return (dist, ⟨r, h⟩)
    | none => return (dist, ⟨st.radius, h⟩)
  else return (dist, ⟨st.radius, h⟩)

/-- vptree_flat/knn_search.py:78-79: process every point of a leaf. -/
def knnProcessAllInf (d : T → T → R) (point : T) (k : Nat) :
    List T → KnnInfState T R → Py (KnnInfState T R)
  | [], st => .ok st
  | x :: xs, st => do
    let (_, st) ← knnProcessInf d point k st x
    knnProcessAllInf d point k xs st

/-- vptree_flat/knn_search.py:67-95, the loop of `_search_iter`. -/
def flatKnnLoopInf (d : T → T → R) (a : VPArray T R) (point : T) (k : Nat) :
    (fuel : Nat) → List (Nat × Nat × R × KnnAction) → KnnInfState T R → Py (KnnInfState T R)
  | 0, _, _ => .error .diverge
  | _ + 1, [], st => .ok st
  | fuel + 1, (start, end_, thr, action) :: stack, st => do
    let vRadius ← a.getDistance start
    let vPoint ← a.getPoint start
    let isTerminal ← a.isTerminal start
    if isTerminal then
      let xs ← a.getPoints start end_
      let st ← knnProcessAllInf d point k xs st
      flatKnnLoopInf d a point k fuel stack st
    else
      match action with
      | .pre =>
        let mid := vpMid start end_
        let (dist, st) ← knnProcessInf d point k st vPoint
        let ((fs, fe), (ss, se)) :=
          if dist ≤ vRadius then ((start + 1, mid), (mid, end_))
          else ((mid, end_), (start + 1, mid))
        flatKnnLoopInf d a point k fuel
          ((fs, fe, 0, .pre) :: (ss, se, pyAbs (vRadius - dist), .post) :: stack) st
      | .post =>
        if thr < st.radius then
          flatKnnLoopInf d a point k fuel ((start, end_, 0, .pre) :: stack) st
        else flatKnnLoopInf d a point k fuel stack st

/-- vptree_flat/knn_search.py:45-52 `search`, from the radius of line 37. -/
def flatKnnSearchInf (inf : R) (d : T → T → R) (a : VPArray T R) (point : T) (k : Nat) :
    Py (List T) := do
  let st ← flatKnnLoopInf d a point k (3 * a.size + 3) [(0, a.size, 0, .pre)]
    ⟨inf, MaxHeap.init⟩
  knnItems k st.result

/-- vptree_hier/knn_search.py:47-54 `_get_radius`. -/
def hierKnnRadiusInf (inf : R) (k : Nat) (h : MaxHeap R T) : Py R :=
  if h.len < k then .ok inf
  else do
    match ← h.top with
    | none => return inf
    | some (r, _) => return r

/-- vptree_hier/knn_search.py:71-74 and 80-82: add if closer than the radius. -/
def hierKnnConsiderInf (inf : R) (k : Nat) (h : MaxHeap R T) (dist : R) (x : T) :
    Py (MaxHeap R T) := do
  let r ← hierKnnRadiusInf inf k h
  if dist < r then hierKnnAdd k h dist x else return h

/-- vptree_hier/knn_search.py:71-74, the loop over the points of a leaf. -/
def hierKnnLeafInf (inf : R) (d : T → T → R) (point : T) (k : Nat) :
    List T → MaxHeap R T → Py (MaxHeap R T)
  | [], h => .ok h
  | x :: xs, h => do
    let h ← hierKnnConsiderInf inf k h (d point x) x
    hierKnnLeafInf inf d point k xs h

/-- vptree_hier/knn_search.py:65-90 `_search_rec`. -/
def hierKnnRecInf (inf : R) (d : T → T → R) (a : VPArray T R) (point : T) (k : Nat) :
    VPNode T R → MaxHeap R T → Py (MaxHeap R T)
  | .leaf start end_, h => do
    let xs ← a.getPoints start end_
    hierKnnLeafInf inf d point k xs h
  | .node vRadius vPoint left right, h => do
    let dist := d vPoint point
    let h ← hierKnnConsiderInf inf k h dist vPoint
    if dist ≤ vRadius then
      let h ← hierKnnRecInf inf d a point k left h
      let r ← hierKnnRadiusInf inf k h
      if pyAbs (dist - vRadius) ≤ r then hierKnnRecInf inf d a point k right h
      else return h
    else
      let h ← hierKnnRecInf inf d a point k right h
      let r ← hierKnnRadiusInf inf k h
      if pyAbs (dist - vRadius) ≤ r then hierKnnRecInf inf d a point k left h
      else return h

/-- vptree_hier/knn_search.py:56-63 `search`. -/
def hierKnnSearchInf (inf : R) (d : T → T → R) (tree : VPNode T R) (a : VPArray T R) (point : T)
    (k : Nat) : Py (List T) := do
  let h ← hierKnnRecInf inf d a point k tree MaxHeap.init
  knnItems k h

/-- vptree.py:75-86 `knn_search`. -/
def VPTree.knnSearchInf (inf : R) (t : VPTree T R) (point : T) (k : Nat) : Py (List T) :=
  match t with
  | .flat d a => flatKnnSearchInf inf d a point k
  | .hier d t a => hierKnnSearchInf inf d t a point k

/-- cover.py:256-268 `KNNCover.search`. -/
def KnnCover.searchInf (inf : R) (c : KnnCover T R) (x : T) : Py (List Nat) :=
  match c.fitted with
  | none => .error .attributeError
  | some f => do
    let neighs ← f.vptree.knnSearchInf inf (-1, x) f.neighbors
    return firsts neighs

/-- cover.py:269-280 `KNNCover.apply`. -/
def KnnCover.applyInf (inf : R) (c : KnnCover T R) (ρ : Nat → Nat) (X : List T) :
    Py (List (List Nat)) :=
  proximityNet (c.fit ρ) (KnnCover.searchInf inf) X

end Verif

import Verif.Model.Cover

/-!
# Model of the calls of the distance function

In `Model/VPArray`, `Model/VPFlat`, `Model/VPHier` and `Model/Cover` the distance function is a
function of the logic. Here the same code is modelled as computations that call it: which calls
are made, in which order, and what happens if a call raises, can be read off. `answer` runs such
a computation with a total function; `answer_flatBuildC` and its companions in `Proof/Calls`
prove that the result is that of the other model.
-/

set_option autoImplicit false

namespace Verif

variable {T R α β : Type}

/-- A computation that calls a distance function: it is over, or it calls the function and goes
on with the result. -/
inductive Calls (T R α : Type) where
  | done (r : Py α)
  | call (x y : T) (k : R → Calls T R α)

namespace Calls

/-- Sequential composition; an exception ends the computation. -/
def bind : Calls T R α → (α → Calls T R β) → Calls T R β
  | .done (.ok a), f => f a
  | .done (.error e), _ => .done (.error e)
  | .call x y k, f => .call x y fun r => (k r).bind f

instance : Monad (Calls T R) where
  pure a := .done (.ok a)
  bind := bind

/-- A step that does not call the distance function. -/
instance : MonadLift (Except PyErr) (Calls T R) := ⟨.done⟩

/-- A call of the distance function. -/
def metric (x y : T) : Calls T R R := .call x y fun r => .done (.ok r)

/-- cover.py:32-74 `_Pullback`: the calls of `dist(x, y)` are calls of `metric(fun(x), fun(y))`. -/
def pull {S : Type} (f : T → S) : Calls T R α → Calls S R α
  | .done r => .done r
  | .call x y k => .call (f x) (f y) fun r => (k r).pull f

/-- The result, with a distance function that never raises. -/
def answer (d : T → T → R) : Calls T R α → Py α
  | .done r => r
  | .call x y k => (k (d x y)).answer d

/-- The calls made, in order, with a distance function that never raises. -/
def trace (d : T → T → R) : Calls T R α → List (T × T)
  | .done _ => []
  | .call x y k => (x, y) :: (k (d x y)).trace d

/-- The result, with a distance function that may raise exceptions of type `E`, which nothing
catches. -/
def run {E : Type} (d : T → T → Except E R) : Calls T R α → Except (PyErr ⊕ E) α
  | .done (.ok a) => .ok a
  | .done (.error e) => .error (.inl e)
  | .call x y k =>
    match d x y with
    | .ok r => (k r).run d
    | .error e => .error (.inr e)

end Calls

section build
variable [LT R] [DecidableLT R] [Zero R]

/-- vptree_flat/builder.py:62-67 [vptree_hier/builder.py:68-73], see `furthestLoop`. -/
def furthestLoopC (arr : VPArray T R) (iPoint : T) :
    (cnt j furthest : Nat) → R → Calls T R Nat
  | 0, _, furthest, _ => pure furthest
  | cnt + 1, j, furthest, furthestDist => do
    let jPoint ← arr.getPoint j
    let jDist ← Calls.metric iPoint jPoint
    if furthestDist < jDist then furthestLoopC arr iPoint cnt (j + 1) j jDist
    else furthestLoopC arr iPoint cnt (j + 1) furthest furthestDist

/-- builder.py:58-68 [64-74] `_furthest`. -/
def furthestC (arr : VPArray T R) (start end_ i : Nat) : Calls T R Nat := do
  let iPoint ← arr.getPoint i
  furthestLoopC arr iPoint (end_ - start) start start 0

/-- builder.py:70-77 [76-83] `_pivoting_furthest`. -/
def pivotingFurthestC (ρ : Nat → Nat) (start end_ : Nat) (st : BuildState T R) :
    Calls T R (BuildState T R) :=
  if end_ ≤ start then pure st
  else do
    let rnd := start + ρ st.draws % (end_ - start)
    let st := { st with draws := st.draws + 1 }
    let furthestRnd ← furthestC st.arr start end_ rnd
    let far ← furthestC st.arr start end_ furthestRnd
    if far > start then
      let arr ← st.arr.swap start far
      return { st with arr }
    else return st

/-- builder.py:41-46 [47-52]: the strategy selected in the constructor. -/
def pivotC (ρ : Nat → Nat) (pivoting : String) (start end_ : Nat) (st : BuildState T R) :
    Calls T R (BuildState T R) :=
  if pivoting = "random" then .done (pivotingRandom ρ start end_ st)
  else if pivoting = "furthest" then pivotingFurthestC ρ start end_ st
  else .done (pivotingDisabled st)

/-- builder.py:83-86 [88-90], the loop of `_update`, see `updateLoop`. -/
def updateLoopC (vPoint : T) (flag : Option Bool) :
    (cnt i : Nat) → VPArray T R → Calls T R (VPArray T R)
  | 0, _, arr => pure arr
  | cnt + 1, i, arr => do
    let point ← arr.getPoint i
    let dist ← Calls.metric vPoint point
    let arr ← arr.setDistance i dist
    let arr ← writeFlag arr i flag
    updateLoopC vPoint flag cnt (i + 1) arr

/-- builder.py:79-86 [85-90] `_update`. -/
def updateC (ρ : Nat → Nat) (pivoting : String) (start end_ : Nat) (st : BuildState T R) :
    Calls T R (BuildState T R) := do
  let st ← pivotC ρ pivoting start end_ st
  let vPoint ← st.arr.getPoint start
  let flag ← readFlag st.arr start
  let arr ← updateLoopC vPoint flag (end_ - (start + 1)) (start + 1) st.arr
  return { st with arr }

/-- vptree_flat/builder.py:100-115, the loop of `_build_iter`, see `flatBuildLoop`. -/
def flatBuildLoopC (ρ : Nat → Nat) (p : VPParams R) :
    (fuel : Nat) → List (Nat × Nat) → BuildState T R → Calls T R (BuildState T R)
  | 0, _, _ => .done (.error .diverge)
  | _ + 1, [], st => pure st
  | fuel + 1, (start, end_) :: stack, st => do
    let mid := vpMid start end_
    let st ← updateC ρ p.pivoting start end_ st
    let arr ← st.arr.partition (start + 1) end_ mid
    let vRadius ← arr.getDistance mid
    if end_ - start > 2 * p.leafCapacity ∧ p.leafRadius < vRadius then
      let arr ← arr.setDistance start vRadius
      let arr ← arr.setTerminal start false
      flatBuildLoopC ρ p fuel ((start + 1, mid) :: (mid, end_) :: stack) { st with arr }
    else
      let arr ← arr.setDistance start vRadius
      let arr ← arr.setTerminal start true
      flatBuildLoopC ρ p fuel stack { st with arr }

/-- vptree_flat/builder.py:88-96 `build`. -/
def flatBuildC (ρ : Nat → Nat) (p : VPParams R) (X : List T) : Calls T R (VPArray T R) :=
  let arr := flatInit X
  if arr.size > 0 then do
    let st ← flatBuildLoopC ρ p (2 * arr.size + 2) [(0, arr.size)] ⟨arr, 0⟩
    return st.arr
  else pure arr

end build

section
variable [LE R] [LT R] [DecidableLE R] [DecidableLT R] [Zero R]

/-- vptree_hier/builder.py:103-120 `_build_rec`, see `hierBuildRec`. -/
def hierBuildRecC (ρ : Nat → Nat) (p : VPParams R) :
    (fuel start end_ : Nat) → BuildState T R → Calls T R (VPNode T R × BuildState T R)
  | 0, _, _, _ => .done (.error .diverge)
  | fuel + 1, start, end_, st =>
    if end_ - start ≤ p.leafCapacity then pure (.leaf start end_, st)
    else do
      let mid := vpMid start end_
      let st ← updateC ρ p.pivoting start end_ st
      let vPoint ← st.arr.getPoint start
      let arr ← st.arr.partition (start + 1) end_ mid
      let vRadius ← arr.getDistance mid
      let arr ← arr.setDistance start vRadius
      let st := { st with arr }
      if vRadius ≤ p.leafRadius then
        return (.node vRadius vPoint (.leaf (start + 1) mid) (.leaf mid end_), st)
      else
        let (left, st) ← hierBuildRecC ρ p fuel (start + 1) mid st
        let (right, st) ← hierBuildRecC ρ p fuel mid end_ st
        return (.node vRadius vPoint left right, st)

/-- vptree_hier/builder.py:92-101 `build`. -/
def hierBuildC (ρ : Nat → Nat) (p : VPParams R) (X : List T) :
    Calls T R (VPNode T R × VPArray T R) :=
  let arr := hierInit X
  if arr.size > 0 then do
    let (tree, st) ← hierBuildRecC ρ p (arr.size + 1) 0 arr.size ⟨arr, 0⟩
    return (tree, st.arr)
  else pure (.leaf 0 0, arr)

end

section search
variable [LE R] [LT R] [DecidableLE R] [DecidableLT R] [Zero R] [Neg R] [Sub R]

/-- vptree_flat/ball_search.py:60-63 [vptree_hier/ball_search.py:64-67]: the points of a leaf
in the ball. -/
def ballLeafC (point : T) (eps : R) (inclusive : Bool) : List T → Calls T R (List T)
  | [] => pure []
  | x :: xs => do
    let dist ← Calls.metric point x
    let rest ← ballLeafC point eps inclusive xs
    return if insideBall eps inclusive dist then x :: rest else rest

/-- vptree_flat/ball_search.py:52-79, the loop of `_search_iter`, see `flatBallLoop`. -/
def flatBallLoopC (a : VPArray T R) (point : T) (eps : R) (inclusive : Bool) :
    (fuel : Nat) → List (Nat × Nat) → List T → Calls T R (List T)
  | 0, _, _ => .done (.error .diverge)
  | _ + 1, [], result => pure result
  | fuel + 1, (start, end_) :: stack, result => do
    let vRadius ← a.getDistance start
    let vPoint ← a.getPoint start
    let isTerminal ← a.isTerminal start
    if isTerminal then
      let xs ← a.getPoints start end_
      let inside ← ballLeafC point eps inclusive xs
      flatBallLoopC a point eps inclusive fuel stack (result ++ inside)
    else
      let dist ← Calls.metric point vPoint
      let mid := vpMid start end_
      let result := if insideBall eps inclusive dist then result ++ [vPoint] else result
      let (fst, snd) :=
        if dist ≤ vRadius then ((start + 1, mid), (mid, end_))
        else ((mid, end_), (start + 1, mid))
      let stack := if pyAbs (dist - vRadius) ≤ eps then snd :: stack else stack
      flatBallLoopC a point eps inclusive fuel (fst :: stack) result

/-- vptree_flat/ball_search.py:39-45 `search`. -/
def flatBallSearchC (a : VPArray T R) (point : T) (eps : R) (inclusive : Bool) :
    Calls T R (List T) :=
  flatBallLoopC a point eps inclusive (2 * a.size + 2) [(0, a.size)] []

/-- vptree_flat/knn_search.py:54-65 `_process`, once the distance is known. -/
def knnProcessDist (k : Nat) (st : KnnState T R) (dist : R) (x : T) :
    Py (R × KnnState T R) := do
  if geRadius dist st.radius then return (dist, st)
  let h ← st.result.add dist x
  let h ← shrinkHeap k (h.len + 1) h
  if h.len = k then
    match ← h.top with
    | some (r, _) => return (dist, ⟨some r, h⟩)
    | none => return (dist, ⟨st.radius, h⟩)
  else return (dist, ⟨st.radius, h⟩)

/-- vptree_flat/knn_search.py:54-65 `_process`. -/
def knnProcessC (point : T) (k : Nat) (st : KnnState T R) (x : T) :
    Calls T R (R × KnnState T R) := do
  let dist ← Calls.metric point x
  knnProcessDist k st dist x

/-- vptree_flat/knn_search.py:78-79: process every point of a leaf. -/
def knnProcessAllC (point : T) (k : Nat) : List T → KnnState T R → Calls T R (KnnState T R)
  | [], st => pure st
  | x :: xs, st => do
    let (_, st) ← knnProcessC point k st x
    knnProcessAllC point k xs st

/-- vptree_flat/knn_search.py:67-95, the loop of `_search_iter`, see `flatKnnLoop`. -/
def flatKnnLoopC (a : VPArray T R) (point : T) (k : Nat) :
    (fuel : Nat) → List (Nat × Nat × R × KnnAction) → KnnState T R → Calls T R (KnnState T R)
  | 0, _, _ => .done (.error .diverge)
  | _ + 1, [], st => pure st
  | fuel + 1, (start, end_, thr, action) :: stack, st => do
    let vRadius ← a.getDistance start
    let vPoint ← a.getPoint start
    let isTerminal ← a.isTerminal start
    if isTerminal then
      let xs ← a.getPoints start end_
      let st ← knnProcessAllC point k xs st
      flatKnnLoopC a point k fuel stack st
    else
      match action with
      | .pre =>
        let mid := vpMid start end_
        let (dist, st) ← knnProcessC point k st vPoint
        let ((fs, fe), (ss, se)) :=
          if dist ≤ vRadius then ((start + 1, mid), (mid, end_))
          else ((mid, end_), (start + 1, mid))
        flatKnnLoopC a point k fuel
          ((fs, fe, 0, .pre) :: (ss, se, pyAbs (vRadius - dist), .post) :: stack) st
      | .post =>
        if radiusGt st.radius thr then
          flatKnnLoopC a point k fuel ((start, end_, 0, .pre) :: stack) st
        else flatKnnLoopC a point k fuel stack st

/-- vptree_flat/knn_search.py:45-52 `search`. -/
def flatKnnSearchC (a : VPArray T R) (point : T) (k : Nat) : Calls T R (List T) := do
  let st ← flatKnnLoopC a point k (3 * a.size + 3) [(0, a.size, 0, .pre)] ⟨none, MaxHeap.init⟩
  .done (knnItems k st.result)

/-- vptree_hier/ball_search.py:58-83 `_search_rec`, see `hierBallRec`. -/
def hierBallRecC (a : VPArray T R) (point : T) (eps : R) (inclusive : Bool) :
    VPNode T R → List T → Calls T R (List T)
  | .leaf start end_, result => do
    let xs ← a.getPoints start end_
    let inside ← ballLeafC point eps inclusive xs
    return result ++ inside
  | .node vRadius vPoint left right, result => do
    let dist ← Calls.metric vPoint point
    let result := if insideBall eps inclusive dist then result ++ [vPoint] else result
    if dist ≤ vRadius then
      let result ← hierBallRecC a point eps inclusive left result
      if pyAbs (dist - vRadius) ≤ eps then hierBallRecC a point eps inclusive right result
      else return result
    else
      let result ← hierBallRecC a point eps inclusive right result
      if pyAbs (dist - vRadius) ≤ eps then hierBallRecC a point eps inclusive left result
      else return result

/-- vptree_hier/ball_search.py:43-51 `search`. -/
def hierBallSearchC (tree : VPNode T R) (a : VPArray T R) (point : T) (eps : R)
    (inclusive : Bool) : Calls T R (List T) :=
  hierBallRecC a point eps inclusive tree []

/-- vptree_hier/knn_search.py:71-74, the loop over the points of a leaf. -/
def hierKnnLeafC (point : T) (k : Nat) : List T → MaxHeap R T → Calls T R (MaxHeap R T)
  | [], h => pure h
  | x :: xs, h => do
    let dist ← Calls.metric point x
    let h ← hierKnnConsider k h dist x
    hierKnnLeafC point k xs h

/-- vptree_hier/knn_search.py:65-90 `_search_rec`, see `hierKnnRec`. -/
def hierKnnRecC (a : VPArray T R) (point : T) (k : Nat) :
    VPNode T R → MaxHeap R T → Calls T R (MaxHeap R T)
  | .leaf start end_, h => do
    let xs ← a.getPoints start end_
    hierKnnLeafC point k xs h
  | .node vRadius vPoint left right, h => do
    let dist ← Calls.metric vPoint point
    let h ← hierKnnConsider k h dist vPoint
    if dist ≤ vRadius then
      let h ← hierKnnRecC a point k left h
      let r ← hierKnnRadius k h
      if leRadius (pyAbs (dist - vRadius)) r then hierKnnRecC a point k right h
      else return h
    else
      let h ← hierKnnRecC a point k right h
      let r ← hierKnnRadius k h
      if leRadius (pyAbs (dist - vRadius)) r then hierKnnRecC a point k left h
      else return h

/-- vptree_hier/knn_search.py:56-63 `search`. -/
def hierKnnSearchC (tree : VPNode T R) (a : VPArray T R) (point : T) (k : Nat) :
    Calls T R (List T) := do
  let h ← hierKnnRecC a point k tree MaxHeap.init
  .done (knnItems k h)

/-- vptree.py:34-56: the wrapped tree, without its metric. -/
inductive VPTreeC (T R : Type) where
  | flat (array : VPArray T R)
  | hier (tree : VPNode T R) (array : VPArray T R)

/-- vptree.py:34-56 `VPTree.__init__`, see `VPTree.build`. -/
def VPTreeC.build (X : List T) (kind : String) (p : VPParams R) (ρ : Nat → Nat) :
    Calls T R (VPTreeC T R) :=
  if kind = "flat" then do
    let a ← flatBuildC ρ p X
    return .flat a
  else if kind = "hierarchical" then do
    let (t, a) ← hierBuildC ρ p X
    return .hier t a
  else .done (.error .valueError)

/-- vptree.py:58-73 `ball_search`. -/
def VPTreeC.ballSearch (t : VPTreeC T R) (point : T) (eps : R) (inclusive : Bool) :
    Calls T R (List T) :=
  match t with
  | .flat a => flatBallSearchC a point eps inclusive
  | .hier t a => hierBallSearchC t a point eps inclusive

/-- vptree.py:75-86 `knn_search`. -/
def VPTreeC.knnSearch (t : VPTreeC T R) (point : T) (k : Nat) : Calls T R (List T) :=
  match t with
  | .flat a => flatKnnSearchC a point k
  | .hier t a => hierKnnSearchC t a point k

/-- The tree with its metric. -/
def VPTreeC.withMetric (d : T → T → R) : VPTreeC T R → VPTree T R
  | .flat a => .flat d a
  | .hier t a => .hier d t a

/-- core.py:265-270: the loop of `proximity_net`, see `proximityLoop`. -/
def proximityLoopC (search : T → Calls T R (List Nat)) :
    (i : Nat) → List T → (covered : List Nat) → Calls T R (List (List Nat))
  | _, [], _ => pure []
  | i, x :: rest, covered =>
    if i ∈ covered then proximityLoopC search (i + 1) rest covered
    else do
      let neigh ← search x
      let out ← proximityLoopC search (i + 1) rest (covered ++ neigh)
      return if neigh = [] then out else neigh :: out

variable [DecidableEq R]

/-- cover.py:129-151 `BallCover.fit`: the tree over the pairs of a position and a row. The
metric of the parameters is the one that is called, its value here is not used. -/
def ballFitC (P : BallParams T R) (ρ : Nat → Nat) (X : List T) :
    Calls T R (VPTreeC (ℤ × T) R) :=
  (VPTreeC.build (enumerate X) P.kind
    ⟨P.leafCapacity, numOr P.leafRadius P.radius, P.pivoting⟩ ρ).pull snd

/-- cover.py:153-169 `BallCover.search`. -/
def ballSearchC (radius : R) (t : VPTreeC (ℤ × T) R) (x : T) : Calls T R (List Nat) := do
  let neighs ← (t.ballSearch (-1, x) radius false).pull snd
  return firsts neighs

/-- cover.py:171-182 `BallCover.apply`. -/
def ballApplyC (P : BallParams T R) (ρ : Nat → Nat) (X : List T) :
    Calls T R (List (List Nat)) := do
  let t ← ballFitC P ρ X
  proximityLoopC (ballSearchC P.radius t) 0 X []

/-- cover.py:232-254 `KNNCover.fit`. -/
def knnFitC (P : KnnParams T R) (ρ : Nat → Nat) (X : List T) :
    Calls T R (VPTreeC (ℤ × T) R) :=
  (VPTreeC.build (enumerate X) P.kind
    ⟨numOr P.leafCapacity P.neighbors, P.leafRadius, P.pivoting⟩ ρ).pull snd

/-- cover.py:256-268 `KNNCover.search`. -/
def knnSearchC (neighbors : Nat) (t : VPTreeC (ℤ × T) R) (x : T) : Calls T R (List Nat) := do
  let neighs ← (t.knnSearch (-1, x) neighbors).pull snd
  return firsts neighs

/-- cover.py:270-281 `KNNCover.apply`. -/
def knnApplyC (P : KnnParams T R) (ρ : Nat → Nat) (X : List T) :
    Calls T R (List (List Nat)) := do
  let t ← knnFitC P ρ X
  proximityLoopC (knnSearchC P.neighbors t) 0 X []

end search

end Verif

import Verif.Model.VPFlat

/-!
# Model of `src/tdamapper/utils/vptree_hier/`
-/

namespace Verif

variable {T R : Type}

/-- vptree_hier/common.py:207-326 `Node` and `Leaf`. -/
inductive VPNode (T R : Type) where
  | leaf (start end_ : Nat)
  | node (radius : R) (center : T) (left right : VPNode T R)

section
variable [LE R] [LT R] [DecidableLE R] [DecidableLT R] [Zero R]

/-- vptree_hier/builder.py:39-42: initial arrays. -/
def hierInit (X : List T) : VPArray T R :=
  ⟨X, X.map (fun _ => 0), List.range X.length, none⟩

/-- vptree_hier/builder.py:103-120 `_build_rec`; the fuel bounds the recursion
depth; `C77_recursion_limit` relates it to Python's recursion limit. -/
def hierBuildRec (d : T → T → R) (ρ : Nat → Nat) (p : VPParams R) :
    (fuel start end_ : Nat) → BuildState T R → Py (VPNode T R × BuildState T R)
  | 0, _, _, _ => .error .diverge
  | fuel + 1, start, end_, st =>
    if end_ - start ≤ p.leafCapacity then .ok (.leaf start end_, st)
    else do
      let mid := vpMid start end_
      let st ← update d ρ p.pivoting start end_ st
      let vPoint ← st.arr.getPoint start
      let arr ← st.arr.partition (start + 1) end_ mid
      let vRadius ← arr.getDistance mid
      let arr ← arr.setDistance start vRadius
      let st := { st with arr }
      if vRadius ≤ p.leafRadius then
        return (.node vRadius vPoint (.leaf (start + 1) mid) (.leaf mid end_), st)
      else
        let (left, st) ← hierBuildRec d ρ p fuel (start + 1) mid st
        let (right, st) ← hierBuildRec d ρ p fuel mid end_ st
        return (.node vRadius vPoint left right, st)

/-- vptree_hier/builder.py:92-101 `build` (called from vptree_hier/vptree.py). -/
def hierBuild (d : T → T → R) (ρ : Nat → Nat) (p : VPParams R) (X : List T) :
    Py (VPNode T R × VPArray T R) :=
  let arr := hierInit X
  if arr.size > 0 then do
    let (tree, st) ← hierBuildRec d ρ p (arr.size + 1) 0 arr.size ⟨arr, 0⟩
    return (tree, st.arr)
  else .ok (.leaf 0 0, arr)

end

section search
variable [LE R] [LT R] [DecidableLE R] [DecidableLT R] [Zero R] [Neg R] [Sub R]

/-- vptree_hier/ball_search.py:58-83 `_search_rec`, with the result list
threaded through. -/
def hierBallRec (d : T → T → R) (a : VPArray T R) (point : T) (eps : R) (inclusive : Bool) :
    VPNode T R → List T → Py (List T)
  | .leaf start end_, result => do
    let xs ← a.getPoints start end_
    return result ++ xs.filter (fun x => insideBall eps inclusive (d point x))
  | .node vRadius vPoint left right, result => do
    let dist := d vPoint point
    let result := if insideBall eps inclusive dist then result ++ [vPoint] else result
    if dist ≤ vRadius then
      let result ← hierBallRec d a point eps inclusive left result
      if pyAbs (dist - vRadius) ≤ eps then hierBallRec d a point eps inclusive right result
      else return result
    else
      let result ← hierBallRec d a point eps inclusive right result
      if pyAbs (dist - vRadius) ≤ eps then hierBallRec d a point eps inclusive left result
      else return result

/-- vptree_hier/ball_search.py:43-51 `search`. -/
def hierBallSearch (d : T → T → R) (tree : VPNode T R) (a : VPArray T R) (point : T)
    (eps : R) (inclusive : Bool) : Py (List T) :=
  hierBallRec d a point eps inclusive tree []

/-- vptree_hier/knn_search.py:37-40 `_add`. -/
def hierKnnAdd (k : Nat) (h : MaxHeap R T) (dist : R) (x : T) : Py (MaxHeap R T) := do
  let h ← h.add dist x
  if h.len > k then
    let (_, h) ← h.pop
    return h
  else return h

/-- vptree_hier/knn_search.py:47-54 `_get_radius`; `none` is `inf`. -/
def hierKnnRadius (k : Nat) (h : MaxHeap R T) : Py (Option R) :=
  if h.len < k then .ok none
  else do
    match ← h.top with
    | none => return none
    | some (r, _) => return some r

/-- vptree_hier/knn_search.py:71-74 and 80-82: add if closer than the radius. -/
def hierKnnConsider (k : Nat) (h : MaxHeap R T) (dist : R) (x : T) : Py (MaxHeap R T) := do
  let r ← hierKnnRadius k h
  if radiusGt r dist then hierKnnAdd k h dist x else return h

/-- vptree_hier/knn_search.py:71-74, the loop over the points of a leaf. -/
def hierKnnLeaf (d : T → T → R) (point : T) (k : Nat) :
    List T → MaxHeap R T → Py (MaxHeap R T)
  | [], h => .ok h
  | x :: xs, h => do
    let h ← hierKnnConsider k h (d point x) x
    hierKnnLeaf d point k xs h

/-- `x <= r` for a possibly infinite `r`. -/
def leRadius (x : R) : Option R → Bool
  | none => true
  | some r => decide (x ≤ r)

/-- vptree_hier/knn_search.py:65-90 `_search_rec`. -/
def hierKnnRec (d : T → T → R) (a : VPArray T R) (point : T) (k : Nat) :
    VPNode T R → MaxHeap R T → Py (MaxHeap R T)
  | .leaf start end_, h => do
    let xs ← a.getPoints start end_
    hierKnnLeaf d point k xs h
  | .node vRadius vPoint left right, h => do
    let dist := d vPoint point
    let h ← hierKnnConsider k h dist vPoint
    if dist ≤ vRadius then
      let h ← hierKnnRec d a point k left h
      if leRadius (pyAbs (dist - vRadius)) (← hierKnnRadius k h) then hierKnnRec d a point k right h
      else return h
    else
      let h ← hierKnnRec d a point k right h
      if leRadius (pyAbs (dist - vRadius)) (← hierKnnRadius k h) then hierKnnRec d a point k left h
      else return h

/-- vptree_hier/knn_search.py:56-63 `search` (`_get_items`, 42-45, is the same
code as in the flat package). -/
def hierKnnSearch (d : T → T → R) (tree : VPNode T R) (a : VPArray T R) (point : T)
    (k : Nat) : Py (List T) := do
  let h ← hierKnnRec d a point k tree MaxHeap.init
  knnItems k h

end search

end Verif

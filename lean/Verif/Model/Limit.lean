import Verif.Model.VPHier

/-!
# Model of the hierarchical searches under a recursion limit

In `Model/VPHier` the recursive searches are defined by recursion on the tree. Here they run with a
limit on the number of nested calls, as in the interpreter; `diverge` is `RecursionError`.
-/

set_option autoImplicit false

namespace Verif

variable {T R : Type} [LE R] [LT R] [DecidableLE R] [DecidableLT R] [Zero R] [Neg R] [Sub R]

/-- vptree_hier/ball_search.py:58-83 `_search_rec`, with at most `limit` nested calls. -/
def hierBallRecLimit (d : T → T → R) (a : VPArray T R) (point : T) (eps : R) (inclusive : Bool) :
    (limit : Nat) → VPNode T R → List T → Py (List T)
  | 0, _, _ => .error .diverge
  | limit + 1, tree, result =>
    match tree with
    | .leaf start end_ => do
      let xs ← a.getPoints start end_
      return result ++ xs.filter (fun x => insideBall eps inclusive (d point x))
    | .node vRadius vPoint left right => do
      let dist := d vPoint point
      let result := if insideBall eps inclusive dist then result ++ [vPoint] else result
      if dist ≤ vRadius then
        let result ← hierBallRecLimit d a point eps inclusive limit left result
        if pyAbs (dist - vRadius) ≤ eps then
          hierBallRecLimit d a point eps inclusive limit right result
        else return result
      else
        let result ← hierBallRecLimit d a point eps inclusive limit right result
        if pyAbs (dist - vRadius) ≤ eps then
          hierBallRecLimit d a point eps inclusive limit left result
        else return result

/-- vptree_hier/knn_search.py:65-90 `_search_rec`, with at most `limit` nested calls. -/
def hierKnnRecLimit (d : T → T → R) (a : VPArray T R) (point : T) (k : Nat) :
    (limit : Nat) → VPNode T R → MaxHeap R T → Py (MaxHeap R T)
  | 0, _, _ => .error .diverge
  | limit + 1, tree, h =>
    match tree with
    | .leaf start end_ => do
      let xs ← a.getPoints start end_
      hierKnnLeaf d point k xs h
    | .node vRadius vPoint left right => do
      let dist := d vPoint point
      let h ← hierKnnConsider k h dist vPoint
      if dist ≤ vRadius then
        let h ← hierKnnRecLimit d a point k limit left h
        if leRadius (pyAbs (dist - vRadius)) (← hierKnnRadius k h) then
          hierKnnRecLimit d a point k limit right h
        else return h
      else
        let h ← hierKnnRecLimit d a point k limit right h
        if leRadius (pyAbs (dist - vRadius)) (← hierKnnRadius k h) then
          hierKnnRecLimit d a point k limit left h
        else return h

/-- vptree_hier/ball_search.py:43-51 `search`. -/
def hierBallSearchLimit (d : T → T → R) (limit : Nat) (tree : VPNode T R) (a : VPArray T R)
    (point : T) (eps : R) (inclusive : Bool) : Py (List T) :=
  hierBallRecLimit d a point eps inclusive limit tree []

/-- vptree_hier/knn_search.py:56-63 `search`. -/
def hierKnnSearchLimit (d : T → T → R) (limit : Nat) (tree : VPNode T R) (a : VPArray T R)
    (point : T) (k : Nat) : Py (List T) := do
  let h ← hierKnnRecLimit d a point k limit tree MaxHeap.init
  knnItems k h

end Verif

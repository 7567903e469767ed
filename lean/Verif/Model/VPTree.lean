import Verif.Model.VPHier

/-!
# Model of `src/tdamapper/utils/vptree.py`
-/

namespace Verif

variable {T R : Type} [LE R] [LT R] [DecidableLE R] [DecidableLT R] [Zero R] [Neg R] [Sub R]

/-- vptree.py:34-56: the wrapped tree `_vpt`, with its metric. -/
inductive VPTree (T R : Type) where
  | flat (metric : T → T → R) (array : VPArray T R)
  | hier (metric : T → T → R) (tree : VPNode T R) (array : VPArray T R)

/-- vptree.py:34-56 `VPTree.__init__`: the kind is a string, any string other
than the two known ones raises `ValueError`. `ρ` supplies the random draws. -/
def VPTree.build (X : List T) (metric : T → T → R) (kind : String) (p : VPParams R)
    (ρ : Nat → Nat) : Py (VPTree T R) :=
  if kind = "flat" then do
    let a ← flatBuild metric ρ p X
    return .flat metric a
  else if kind = "hierarchical" then do
    let (t, a) ← hierBuild metric ρ p X
    return .hier metric t a
  else .error .valueError

/-- vptree.py:58-73 `ball_search`. -/
def VPTree.ballSearch (t : VPTree T R) (point : T) (eps : R) (inclusive : Bool) :
    Py (List T) :=
  match t with
  | .flat d a => flatBallSearch d a point eps inclusive
  | .hier d t a => hierBallSearch d t a point eps inclusive

/-- vptree.py:75-86 `knn_search`. -/
def VPTree.knnSearch (t : VPTree T R) (point : T) (k : Nat) : Py (List T) :=
  match t with
  | .flat d a => flatKnnSearch d a point k
  | .hier d t a => hierKnnSearch d t a point k

end Verif

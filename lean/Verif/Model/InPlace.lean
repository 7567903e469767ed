import Verif.Model.Cover

/-!
# Model of the references that trees and covers keep to the rows of the data

`VPTree`, `BallCover` and `KNNCover` keep the rows they are given, not copies of them: iterating
over a numpy array yields views, and lists yield the objects they hold. Distances are computed
from what the rows contain at the time of the search.
-/

set_option autoImplicit false

namespace Verif

variable {T R : Type}

/-- What a tree holds for a point: a row of an array that can be written to (vptree_flat/
builder.py:33 and vptree_hier/builder.py:39 `list(X)`, cover.py:142 and 243
`list(enumerate(X))`), or an object that nothing else refers to. -/
inductive RowRef (T : Type) where
  | row (address : Nat)
  | value (x : T)

/-- The rows of an array of `n` rows, as yielded by iterating over it. -/
def arrayRows (T : Type) (n : Nat) : List (RowRef T) := (List.range n).map .row

/-- The contents of a point when the memory is `σ`. -/
def RowRef.read (σ : Nat → T) : RowRef T → T
  | .row i => σ i
  | .value x => x

/-- A distance function applied to points while the memory is `σ`. -/
def inMemory (σ : Nat → T) (metric : T → T → R) : RowRef T → RowRef T → R :=
  pullback (RowRef.read σ) metric

section
variable [LE R] [LT R] [DecidableLE R] [DecidableLT R] [Zero R] [Neg R] [Sub R]

/-- A tree after the memory changed: its arrays and radii are as before, and its metric reads
other rows (vptree_flat/ball_search.py, vptree_flat/knn_search.py, vptree_hier/ball_search.py
and vptree_hier/knn_search.py call `metric` on stored entries at every search). -/
def VPTree.later {T : Type} (metric : T → T → R) : VPTree T R → VPTree T R
  | .flat _ a => .flat metric a
  | .hier _ t a => .hier metric t a

variable [DecidableEq R]

/-- cover.py:129-151 `BallCover.fit` while the memory is `σ`. -/
def ballFitIn (P : BallParams T R) (σ : Nat → T) (ρ : Nat → Nat) (X : List (RowRef T)) :
    Py (BallCover (RowRef T) R) :=
  BallCover.fit ⟨⟨P.radius, inMemory σ P.metric, P.kind, P.leafCapacity, P.leafRadius, P.pivoting⟩,
    none⟩ ρ X

/-- cover.py:153-169 `BallCover.search` while the memory is `σ`. -/
def ballSearchIn (P : BallParams T R) (σ : Nat → T) (c : BallCover (RowRef T) R)
    (x : RowRef T) : Py (List Nat) :=
  BallCover.search ⟨c.params, c.fitted.map fun f =>
    ⟨f.radius, f.vptree.later (pullback snd (inMemory σ P.metric))⟩⟩ x

/-- cover.py:232-254 `KNNCover.fit` while the memory is `σ`. -/
def knnFitIn (P : KnnParams T R) (σ : Nat → T) (ρ : Nat → Nat) (X : List (RowRef T)) :
    Py (KnnCover (RowRef T) R) :=
  KnnCover.fit ⟨⟨P.neighbors, inMemory σ P.metric, P.kind, P.leafCapacity, P.leafRadius,
    P.pivoting⟩, none⟩ ρ X

/-- cover.py:256-268 `KNNCover.search` while the memory is `σ`. -/
def knnSearchIn (P : KnnParams T R) (σ : Nat → T) (c : KnnCover (RowRef T) R)
    (x : RowRef T) : Py (List Nat) :=
  KnnCover.search ⟨c.params, c.fitted.map fun f =>
    ⟨f.neighbors, f.vptree.later (pullback snd (inMemory σ P.metric))⟩⟩ x

end

end Verif

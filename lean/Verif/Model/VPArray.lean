import Verif.Model.Quickselect

/-!
# Model of `VPArray` and of the parts shared by the two builders

`vptree_flat/common.py`, `vptree_hier/common.py` and the pivoting code of the two
`builder.py` are textually the same, except that the flat `VPArray` carries an
additional boolean array `_is_terminal`. The model has one `VPArray` in which
`terminal` is `some _` for the flat kind and `none` for the hierarchical kind.
Line numbers are those of the flat package; the hierarchical ones are given in
brackets.

`random.randrange(s, e)` reads the next value of an oracle `ρ : ℕ → ℕ`.
-/

namespace Verif

variable {T R : Type}

/-- vptree_flat/common.py:15-16 [vptree_hier/common.py:15-16] `_mid`. -/
def vpMid (start end_ : Nat) : Nat := (start + end_) / 2

/-- vptree_flat/common.py:25-52 [25-48] `VPArray`. -/
structure VPArray (T R : Type) where
  dataset : List T
  distances : List R
  indices : List Nat
  terminal : Option (List Bool)

namespace VPArray

/-- common.py:54-60 [50-56] `size`. -/
def size (a : VPArray T R) : Nat := a.dataset.length

/-- common.py:62-69 [58-65] `get_point`. -/
def getPoint (a : VPArray T R) (i : Nat) : Py T := do
  let j ← getItem a.indices i
  getItem a.dataset j

/-- common.py:71-80 [67-76] `get_points`, as the list of yielded points. -/
def getPoints (a : VPArray T R) (s e : Nat) : Py (List T) :=
  (slice a.indices s e).mapM (fun j => getItem a.dataset j)

/-- common.py:82-89 [78-85] `get_distance`. -/
def getDistance (a : VPArray T R) (i : Nat) : Py R := getItem a.distances i

/-- common.py:91-98 [87-94] `set_distance`. -/
def setDistance (a : VPArray T R) (i : Nat) (x : R) : Py (VPArray T R) := do
  let l ← setItem a.distances i x
  return { a with distances := l }

/-- vptree_flat/common.py:109-116 `is_terminal` (the hierarchical `VPArray` has
no such method). -/
def isTerminal (a : VPArray T R) (i : Nat) : Py Bool :=
  match a.terminal with
  | none => .error .attributeError
  | some t => getItem t i

/-- vptree_flat/common.py:100-107 `set_terminal`. -/
def setTerminal (a : VPArray T R) (i : Nat) (b : Bool) : Py (VPArray T R) :=
  match a.terminal with
  | none => .error .attributeError
  | some t => do
    let t ← setItem t i b
    return { a with terminal := some t }

/-- The arrays permuted together by `swap` and `partition`. -/
def rows (a : VPArray T R) : QState R Nat Bool :=
  ⟨a.distances, some a.indices, a.terminal⟩

/-- Put permuted arrays back. The companion `indices` is always present. -/
def withRows (a : VPArray T R) (q : QState R Nat Bool) : VPArray T R :=
  { a with distances := q.data, indices := q.extra1.getD [], terminal := q.extra2 }

/-- common.py:118-125 [96-103] `swap`. -/
def swap (a : VPArray T R) (i j : Nat) : Py (VPArray T R) := do
  let q ← swapAll a.rows i j
  return a.withRows q

variable [LT R] [DecidableLT R]

/-- common.py:127-135 [105-113] `partition`. -/
def partition (a : VPArray T R) (s e k : Nat) : Py (VPArray T R) := do
  let q ← quickselect a.rows s e k
  return a.withRows q

end VPArray

/-- The array under construction and the number of random values used so far. -/
structure BuildState (T R : Type) where
  arr : VPArray T R
  draws : Nat

/-- Parameters of a tree: vptree.py:34-43. A pivoting string other than
`"random"` and `"furthest"` disables pivoting (builder.py:42-46). -/
structure VPParams (R : Type) where
  leafCapacity : Nat
  leafRadius : R
  pivoting : String

section build
variable [LT R] [DecidableLT R] [Zero R]

/-- vptree_flat/builder.py:48-49 [54-55] `_pivoting_disabled`. -/
def pivotingDisabled (st : BuildState T R) : Py (BuildState T R) := .ok st

/-- builder.py:51-56 [57-62] `_pivoting_random`. -/
def pivotingRandom (ρ : Nat → Nat) (start end_ : Nat) (st : BuildState T R) :
    Py (BuildState T R) :=
  if end_ ≤ start then .ok st
  else do
    let pivot := start + ρ st.draws % (end_ - start)
    let st := { st with draws := st.draws + 1 }
    if pivot > start then
      let arr ← st.arr.swap start pivot
      return { st with arr }
    else return st

/-- builder.py:62-67 [68-73], `cnt` remaining iterations of the loop. -/
def furthestLoop (d : T → T → R) (arr : VPArray T R) (iPoint : T) :
    (cnt j furthest : Nat) → R → Py Nat
  | 0, _, furthest, _ => .ok furthest
  | cnt + 1, j, furthest, furthestDist => do
    let jPoint ← arr.getPoint j
    let jDist := d iPoint jPoint
    if furthestDist < jDist then furthestLoop d arr iPoint cnt (j + 1) j jDist
    else furthestLoop d arr iPoint cnt (j + 1) furthest furthestDist

/-- builder.py:58-68 [64-74] `_furthest`. -/
def furthest (d : T → T → R) (arr : VPArray T R) (start end_ i : Nat) : Py Nat := do
  let iPoint ← arr.getPoint i
  furthestLoop d arr iPoint (end_ - start) start start 0

/-- builder.py:70-77 [76-83] `_pivoting_furthest`. -/
def pivotingFurthest (d : T → T → R) (ρ : Nat → Nat) (start end_ : Nat)
    (st : BuildState T R) : Py (BuildState T R) :=
  if end_ ≤ start then .ok st
  else do
    let rnd := start + ρ st.draws % (end_ - start)
    let st := { st with draws := st.draws + 1 }
    let furthestRnd ← furthest d st.arr start end_ rnd
    let far ← furthest d st.arr start end_ furthestRnd
    if far > start then
      let arr ← st.arr.swap start far
      return { st with arr }
    else return st

/-- builder.py:41-46 [47-52]: the strategy selected in the constructor. -/
def pivot (d : T → T → R) (ρ : Nat → Nat) (pivoting : String) (start end_ : Nat)
    (st : BuildState T R) : Py (BuildState T R) :=
  if pivoting = "random" then pivotingRandom ρ start end_ st
  else if pivoting = "furthest" then pivotingFurthest d ρ start end_ st
  else pivotingDisabled st

/-- vptree_flat/builder.py:82: read the terminal flag (flat kind only). -/
def readFlag (arr : VPArray T R) (i : Nat) : Py (Option Bool) :=
  match arr.terminal with
  | some t => (getItem t i).map some
  | none => .ok none

/-- vptree_flat/builder.py:86: copy the terminal flag (flat kind only). -/
def writeFlag (arr : VPArray T R) (i : Nat) (flag : Option Bool) : Py (VPArray T R) :=
  match flag with
  | some b => arr.setTerminal i b
  | none => .ok arr

/-- vptree_flat/builder.py:83-86 [vptree_hier/builder.py:88-90], `cnt` remaining
iterations of the loop of `_update`; `flag` is the value read at line 82 (flat
kind only). -/
def updateLoop (d : T → T → R) (vPoint : T) (flag : Option Bool) :
    (cnt i : Nat) → VPArray T R → Py (VPArray T R)
  | 0, _, arr => .ok arr
  | cnt + 1, i, arr => do
    let point ← arr.getPoint i
    let arr ← arr.setDistance i (d vPoint point)
    let arr ← writeFlag arr i flag
    updateLoop d vPoint flag cnt (i + 1) arr

/-- vptree_flat/builder.py:79-86 [vptree_hier/builder.py:85-90] `_update`; line
82 of the flat builder reads the terminal flag. -/
def update (d : T → T → R) (ρ : Nat → Nat) (pivoting : String) (start end_ : Nat)
    (st : BuildState T R) : Py (BuildState T R) := do
  let st ← pivot d ρ pivoting start end_ st
  let vPoint ← st.arr.getPoint start
  let flag ← readFlag st.arr start
  let arr ← updateLoop d vPoint flag (end_ - (start + 1)) (start + 1) st.arr
  return { st with arr }

end build

end Verif

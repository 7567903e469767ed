import Verif.Model.Calls

/-!
# Model of the comparisons made while partitioning

In `Model/Quickselect` the comparison of two entries is one of the logic. Here `quickselect`, and
the construction of trees with it, are modelled as computations that ask for each comparison
`x < y`, so that they can be counted: a `Calls R Bool` is a computation that asks whether one number
is less than another. `answer_quickselectQ` and its companions in `Proof/Compare` prove that the
results are those of the other model. The comparisons of `_furthest` (builder.py:62-67), one for
each call of the distance function, are not counted.
-/

set_option autoImplicit false

namespace Verif

variable {T R β γ : Type}

/-- quickselect.py:44-50, see `partitionLoop`. -/
def partitionLoopQ (p : R) :
    (cnt j higher : Nat) → QState R β γ → Calls R Bool (QState R β γ × Nat)
  | 0, _, higher, s => pure (s, higher)
  | cnt + 1, j, higher, s => do
    let x ← getItem s.data j
    let less ← Calls.metric x p
    if less then
      let s ← swapAll s higher j
      partitionLoopQ p cnt (j + 1) (higher + 1) s
    else
      partitionLoopQ p cnt (j + 1) higher s

/-- quickselect.py:34-50 `_partition`. -/
def partitionQ (s : QState R β γ) (start end_ : Nat) (p : R) : Calls R Bool (QState R β γ × Nat) :=
  partitionLoopQ p (end_ - start) start start s

/-- quickselect.py:66-77, see `quickselectLoop`. -/
def quickselectLoopQ (k : Nat) :
    (fuel start end_ : Nat) → (higher : Int) → QState R β γ → Calls R Bool (QState R β γ)
  | 0, _, _, _, _ => .done (.error .diverge)
  | fuel + 1, start, end_, higher, s =>
    if higher = (k : Int) + 1 then pure s
    else do
      let p ← getItem s.data k
      let s ← swapAll s start k
      let (s, h) ← partitionQ s (start + 1) end_ p
      let s ← swapAll s start (h - 1)
      if k ≤ h - 1 then quickselectLoopQ k fuel start h h s
      else quickselectLoopQ k fuel h end_ h s

/-- quickselect.py:54-77 `_quickselect`. -/
def quickselectQ (s : QState R β γ) (start end_ k : Nat) : Calls R Bool (QState R β γ) :=
  if k < start ∨ end_ ≤ k then pure s
  else quickselectLoopQ k (2 * (end_ - start) + 3) start end_ (-1) s

/-- common.py:127-135 [105-113] `partition`. -/
def VPArray.partitionQ (a : VPArray T R) (s e k : Nat) : Calls R Bool (VPArray T R) := do
  let q ← quickselectQ a.rows s e k
  return a.withRows q

section build
variable [LT R] [DecidableLT R] [Zero R]

/-- vptree_flat/builder.py:100-115, the loop of `_build_iter`, see `flatBuildLoop`. -/
def flatBuildLoopQ (d : T → T → R) (ρ : Nat → Nat) (p : VPParams R) :
    (fuel : Nat) → List (Nat × Nat) → BuildState T R → Calls R Bool (BuildState T R)
  | 0, _, _ => .done (.error .diverge)
  | _ + 1, [], st => pure st
  | fuel + 1, (start, end_) :: stack, st => do
    let mid := vpMid start end_
    let st ← update d ρ p.pivoting start end_ st
    let arr ← st.arr.partitionQ (start + 1) end_ mid
    let vRadius ← arr.getDistance mid
    if end_ - start > 2 * p.leafCapacity ∧ p.leafRadius < vRadius then
      let arr ← arr.setDistance start vRadius
      let arr ← arr.setTerminal start false
      flatBuildLoopQ d ρ p fuel ((start + 1, mid) :: (mid, end_) :: stack) { st with arr }
    else
      let arr ← arr.setDistance start vRadius
      let arr ← arr.setTerminal start true
      flatBuildLoopQ d ρ p fuel stack { st with arr }

/-- vptree_flat/builder.py:88-96 `build`. -/
def flatBuildQ (d : T → T → R) (ρ : Nat → Nat) (p : VPParams R) (X : List T) :
    Calls R Bool (VPArray T R) :=
  let arr := flatInit X
  if arr.size > 0 then do
    let st ← flatBuildLoopQ d ρ p (2 * arr.size + 2) [(0, arr.size)] ⟨arr, 0⟩
    return st.arr
  else pure arr

variable [LE R] [DecidableLE R]

/-- vptree_hier/builder.py:103-120 `_build_rec`, see `hierBuildRec`. -/
def hierBuildRecQ (d : T → T → R) (ρ : Nat → Nat) (p : VPParams R) :
    (fuel start end_ : Nat) → BuildState T R → Calls R Bool (VPNode T R × BuildState T R)
  | 0, _, _, _ => .done (.error .diverge)
  | fuel + 1, start, end_, st =>
    if end_ - start ≤ p.leafCapacity then pure (.leaf start end_, st)
    else do
      let mid := vpMid start end_
      let st ← update d ρ p.pivoting start end_ st
      let vPoint ← st.arr.getPoint start
      let arr ← st.arr.partitionQ (start + 1) end_ mid
      let vRadius ← arr.getDistance mid
      let arr ← arr.setDistance start vRadius
      let st := { st with arr }
      if vRadius ≤ p.leafRadius then
        return (.node vRadius vPoint (.leaf (start + 1) mid) (.leaf mid end_), st)
      else
        let (left, st) ← hierBuildRecQ d ρ p fuel (start + 1) mid st
        let (right, st) ← hierBuildRecQ d ρ p fuel mid end_ st
        return (.node vRadius vPoint left right, st)

/-- vptree_hier/builder.py:92-101 `build`. -/
def hierBuildQ (d : T → T → R) (ρ : Nat → Nat) (p : VPParams R) (X : List T) :
    Calls R Bool (VPNode T R × VPArray T R) :=
  let arr := hierInit X
  if arr.size > 0 then do
    let (tree, st) ← hierBuildRecQ d ρ p (arr.size + 1) 0 arr.size ⟨arr, 0⟩
    return (tree, st.arr)
  else pure (.leaf 0 0, arr)

end build

end Verif

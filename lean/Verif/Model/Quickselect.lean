import Verif.Py
import Mathlib.Order.Defs.LinearOrder

/-!
# Model of `src/tdamapper/utils/quickselect.py`

Arrays are lists; the three arrays that are permuted together (`data`, and the
optional `extra1`, `extra2`) are bundled in `QState`. `use_extraN` with the
dummy array `_ARR` (lines 8, 80-93) is modelled by `Option`. Indices are natural
numbers (the callers never pass negative ones); `higher` is an integer because
it starts at `-1`.
-/

namespace Verif

variable {R β γ : Type}

/-- `data`, `extra1`, `extra2`: quickselect.py:17-25 (parameters). -/
structure QState (R β γ : Type) where
  data : List R
  extra1 : Option (List β)
  extra2 : Option (List γ)

/-- quickselect.py:12-13 `swap`: `arr[i], arr[j] = arr[j], arr[i]`. -/
def swapList {α : Type} (arr : List α) (i j : Nat) : Py (List α) := do
  let x ← getItem arr j
  let y ← getItem arr i
  let arr ← setItem arr i x
  setItem arr j y

/-- `if use_extra: swap(extra, i, j)`, quickselect.py:27-30. -/
def swapOpt {α : Type} (arr : Option (List α)) (i j : Nat) :
    Py (Option (List α)) :=
  match arr with
  | none => .ok none
  | some a => do
    let a ← swapList a i j
    return some a

/-- quickselect.py:17-30 `_swap_all` (and the wrapper `swap_all`, 96-113). -/
def swapAll (s : QState R β γ) (i j : Nat) : Py (QState R β γ) := do
  let data ← swapList s.data i j
  let extra1 ← swapOpt s.extra1 i j
  let extra2 ← swapOpt s.extra2 i j
  return { data, extra1, extra2 }

/-- quickselect.py:44-50: `cnt` remaining iterations of
`for j in range(start, end)`, at loop variable `j`. -/
def partitionLoop [LT R] [DecidableLT R] (p : R) :
    (cnt j higher : Nat) → QState R β γ → Py (QState R β γ × Nat)
  | 0, _, higher, s => .ok (s, higher)
  | cnt + 1, j, higher, s => do
    let x ← getItem s.data j
    if x < p then
      let s ← swapAll s higher j
      partitionLoop p cnt (j + 1) (higher + 1) s
    else
      partitionLoop p cnt (j + 1) higher s

/-- quickselect.py:34-50 `_partition` (and the wrapper `partition`, 116-135). -/
def partition [LT R] [DecidableLT R] (s : QState R β γ) (start end_ : Nat) (p : R) :
    Py (QState R β γ × Nat) :=
  partitionLoop p (end_ - start) start start s

/-- quickselect.py:66-77, the `while higher != k + 1` loop. -/
def quickselectLoop [LT R] [DecidableLT R] (k : Nat) :
    (fuel start end_ : Nat) → (higher : Int) → QState R β γ → Py (QState R β γ)
  | 0, _, _, _, _ => .error .diverge
  | fuel + 1, start, end_, higher, s =>
    if higher = (k : Int) + 1 then .ok s
    else do
      let p ← getItem s.data k
      let s ← swapAll s start k
      let (s, h) ← partition s (start + 1) end_ p
      let s ← swapAll s start (h - 1)
      if k ≤ h - 1 then quickselectLoop k fuel start h h s
      else quickselectLoop k fuel h end_ h s

/-- quickselect.py:54-77 `_quickselect` (and the wrapper `quickselect`,
138-157). The fuel bounds the number of loop tests; it is proved sufficient. -/
def quickselect [LT R] [DecidableLT R] (s : QState R β γ) (start end_ k : Nat) :
    Py (QState R β γ) :=
  if k < start ∨ end_ ≤ k then .ok s
  else quickselectLoop k (2 * (end_ - start) + 3) start end_ (-1) s

end Verif

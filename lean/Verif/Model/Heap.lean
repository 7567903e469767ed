import Verif.Model.Quickselect

/-!
# Model of `src/tdamapper/utils/heap.py`

A `_HeapNode` (44-79) is a pair `(key, value)` compared by key. The list `_heap`
and the single shared list iterator `_iter` (line 91) are the fields of
`MaxHeap`.
-/

namespace Verif

variable {K V : Type}

/-- State of the attribute `_iter` of a `MaxHeap`: not yet assigned, a live list
iterator about to read position `n`, or an exhausted list iterator. -/
inductive IterState where
  | unset
  | live (n : Nat)
  | exhausted
  deriving DecidableEq, Repr

/-- heap.py:82-94 `MaxHeap`. -/
structure MaxHeap (K V : Type) where
  heap : List (K × V)
  iter : IterState

namespace MaxHeap

/-- heap.py:93-94 `__init__`. -/
def init : MaxHeap K V := ⟨[], .unset⟩

/-- heap.py:96-98 `__iter__`. -/
def startIter (h : MaxHeap K V) : MaxHeap K V := { h with iter := .live 0 }

/-- heap.py:100-102 `__next__`; `none` is `StopIteration`. Reading `_iter` before
`__iter__` is an `AttributeError`. A list iterator that has signalled the end
stays exhausted. -/
def next (h : MaxHeap K V) : Py (Option (K × V) × MaxHeap K V) :=
  match h.iter with
  | .unset => .error .attributeError
  | .exhausted => .ok (none, h)
  | .live n =>
    match h.heap[n]? with
    | some x => .ok (some x, { h with iter := .live (n + 1) })
    | none => .ok (none, { h with iter := .exhausted })

/-- The iterations of `for x in heap:` collecting the items. -/
def collectLoop : (fuel : Nat) → MaxHeap K V → Py (List (K × V) × MaxHeap K V)
  | 0, _ => .error .diverge
  | fuel + 1, h => do
    match ← h.next with
    | (none, h) => return ([], h)
    | (some x, h) =>
      let (xs, h) ← collectLoop fuel h
      return (x :: xs, h)

/-- `list(heap)`, e.g. the comprehension in vptree_flat/knn_search.py:43. -/
def toList (h : MaxHeap K V) : Py (List (K × V) × MaxHeap K V) :=
  collectLoop (h.heap.length + 1) h.startIter

/-- heap.py:104-105 `__len__`. -/
def len (h : MaxHeap K V) : Nat := h.heap.length

/-- heap.py:107-113 `is_empty`. -/
def isEmpty (h : MaxHeap K V) : Bool := h.heap.length == 0

/-- heap.py:115-124 `top`. -/
def top (h : MaxHeap K V) : Py (Option (K × V)) :=
  match h.heap with
  | [] => .ok none
  | l@(_ :: _) => do
    let x ← getItem l 0
    return some x

end MaxHeap

/-- heap.py:13-14 `_left`. -/
def heapLeft (i : Nat) : Nat := 2 * i + 1

/-- heap.py:17-18 `_right`. -/
def heapRight (i : Nat) : Nat := 2 * i + 2

/-- heap.py:21-22 `_parent`: `max(0, (i - 1) // 2)`; Python floor division on
integers, so that index 0 has parent `max(0, -1) = 0`. -/
def heapParent (i : Nat) : Nat := (max 0 (((i : Int) - 1) / 2)).toNat

variable [LT K] [DecidableLT K]

/-- heap.py:151-166 `_get_local_max`. -/
def getLocalMax (l : List (K × V)) (i : Nat) : Py Nat := do
  let left := heapLeft i
  let right := heapRight i
  if left ≥ l.length then return i
  if right ≥ l.length then
    let xi ← getItem l i
    let xl ← getItem l left
    if xi.1 < xl.1 then return left
    return i
  let xl ← getItem l left
  let xr ← getItem l right
  let maxChild := if xl.1 < xr.1 then right else left
  let xi ← getItem l i
  let xm ← getItem l maxChild
  if xi.1 < xm.1 then return maxChild
  return i

/-- heap.py:168-176 `_fix_down`. -/
def fixDown (l : List (K × V)) (i : Nat) : Py (List (K × V) × Nat) := do
  let localMax ← getLocalMax l i
  if i < localMax then
    let l ← swapList l i localMax
    return (l, localMax)
  return (l, i)

/-- heap.py:178-183 `_fix_up`. -/
def fixUp (l : List (K × V)) (i : Nat) : Py (List (K × V) × Nat) := do
  let parent := heapParent i
  let xp ← getItem l parent
  let xi ← getItem l i
  if xp.1 < xi.1 then
    let l ← swapList l i parent
    return (l, parent)
  return (l, i)

/-- heap.py:188-191, the loop of `_bubble_down`. -/
def bubbleDownLoop : (fuel : Nat) → List (K × V) → Nat → Py (List (K × V))
  | 0, _, _ => .error .diverge
  | fuel + 1, l, current => do
    let (l, localMax) ← fixDown l current
    if current = localMax then return l
    bubbleDownLoop fuel l localMax

/-- heap.py:185-191 `_bubble_down`. -/
def bubbleDown (l : List (K × V)) : Py (List (K × V)) :=
  bubbleDownLoop (l.length + 1) l 0

/-- heap.py:196-199, the loop of `_bubble_up`. -/
def bubbleUpLoop : (fuel : Nat) → List (K × V) → Nat → Py (List (K × V))
  | 0, _, _ => .error .diverge
  | fuel + 1, l, current => do
    let (l, localMax) ← fixUp l current
    if localMax = current then return l
    bubbleUpLoop fuel l localMax

/-- heap.py:193-199 `_bubble_up` (only called after an append, so the list is
not empty and `len - 1` is a natural number). -/
def bubbleUp (l : List (K × V)) : Py (List (K × V)) :=
  bubbleUpLoop (l.length + 1) l (l.length - 1)

namespace MaxHeap

/-- heap.py:126-139 `pop`. -/
def pop (h : MaxHeap K V) : Py (Option (K × V) × MaxHeap K V) :=
  match h.heap with
  | [] => .ok (none, h)
  | l@(_ :: _) => do
    let maxVal ← getItem l 0
    let last ← getItem l (l.length - 1)
    let l ← setItem l 0 last
    let l ← bubbleDown l.dropLast
    return (some maxVal, { h with heap := l })

/-- heap.py:141-149 `add`. -/
def add (h : MaxHeap K V) (key : K) (value : V) : Py (MaxHeap K V) := do
  let l ← bubbleUp (h.heap ++ [(key, value)])
  return { h with heap := l }

end MaxHeap

end Verif

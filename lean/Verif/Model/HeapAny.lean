import Verif.Model.Heap

/-!
# Model of `src/tdamapper/utils/heap.py` with comparisons of any kind

In `Model/Heap` the comparison of two keys is one of the logic, and a call that fails leaves no
heap behind. Here a comparison `x < y` runs a method of the keys, which may answer anything, may
answer differently each time, and may raise; and the methods of the heap change it in place, so that
an exception leaves it as it then is. `heap_add` and `heap_pop` in `Proof/HeapAny` prove that for
comparisons of the logic the results are those of the other model.
-/

set_option autoImplicit false

namespace Verif

variable {K V E α β : Type}

/-- What a method call may raise: an exception of a comparison, or one of the method itself. -/
inductive HeapExc (E : Type) where
  | compare (e : E)
  | py (e : PyErr)

/-- The list `_heap` (heap.py:90), and the number of comparisons made so far. -/
structure HeapState (K V : Type) where
  items : List (K × V)
  count : Nat

/-- A method that changes the heap in place, whether it returns or raises. -/
def HeapM (E K V α : Type) : Type := HeapState K V → Except (HeapExc E) α × HeapState K V

/-- A statement that returns a value, and the statements that follow it: they do not run if it
raises, and the changes made so far stay. -/
instance : Monad (HeapM E K V) where
  pure a := fun s => (.ok a, s)
  bind x f := fun s =>
    match x s with
    | (.ok a, s) => f a s
    | (.error e, s) => (.error e, s)

namespace HeapM

/-- `self._heap`. -/
def items : HeapM E K V (List (K × V)) := fun s => (.ok s.items, s)

/-- The list `_heap` is changed. -/
def put (l : List (K × V)) : HeapM E K V Unit := fun s => (.ok (), { s with items := l })

/-- An operation on lists, that may raise. -/
def lift (x : Py α) : HeapM E K V α := fun s => (x.mapError .py, s)

/-- heap.py:69-70 `_HeapNode.__lt__`: the comparison of two keys, the `n`-th one that is made being
`lt n`. -/
def less (lt : Nat → K → K → Except E Bool) (x y : K × V) : HeapM E K V Bool := fun s =>
  ((lt s.count x.1 y.1).mapError .compare, { s with count := s.count + 1 })

variable (lt : Nat → K → K → Except E Bool)

/-- heap.py:151-166 `_get_local_max`. -/
def getLocalMax (i : Nat) : HeapM E K V Nat := do
  let l ← items
  let left := heapLeft i
  let right := heapRight i
  if left ≥ l.length then return i
  else if right ≥ l.length then
    let xi ← lift (getItem l i)
    let xl ← lift (getItem l left)
    if ← less lt xi xl then return left else return i
  else
    let xl ← lift (getItem l left)
    let xr ← lift (getItem l right)
    let maxChild := if ← less lt xl xr then right else left
    let xi ← lift (getItem l i)
    let xm ← lift (getItem l maxChild)
    if ← less lt xi xm then return maxChild else return i

/-- heap.py:168-176 `_fix_down`. -/
def fixDown (i : Nat) : HeapM E K V Nat := do
  let localMax ← getLocalMax lt i
  if i < localMax then
    let l ← items
    let l ← lift (swapList l i localMax)
    put l
    return localMax
  else return i

/-- heap.py:178-183 `_fix_up`. -/
def fixUp (i : Nat) : HeapM E K V Nat := do
  let l ← items
  let parent := heapParent i
  let xp ← lift (getItem l parent)
  let xi ← lift (getItem l i)
  if ← less lt xp xi then
    let l ← lift (swapList l i parent)
    put l
    return parent
  else return i

/-- heap.py:188-191, the loop of `_bubble_down`. -/
def bubbleDownLoop : (fuel : Nat) → Nat → HeapM E K V Unit
  | 0, _ => lift (.error .diverge)
  | fuel + 1, current => do
    let localMax ← fixDown lt current
    if current = localMax then return ()
    else bubbleDownLoop fuel localMax

/-- heap.py:185-191 `_bubble_down`. -/
def bubbleDown : HeapM E K V Unit := do
  let l ← items
  bubbleDownLoop lt (l.length + 1) 0

/-- heap.py:196-199, the loop of `_bubble_up`. -/
def bubbleUpLoop : (fuel : Nat) → Nat → HeapM E K V Unit
  | 0, _ => lift (.error .diverge)
  | fuel + 1, current => do
    let localMax ← fixUp lt current
    if localMax = current then return ()
    else bubbleUpLoop fuel localMax

/-- heap.py:193-199 `_bubble_up`. -/
def bubbleUp : HeapM E K V Unit := do
  let l ← items
  bubbleUpLoop lt (l.length + 1) (l.length - 1)

/-- heap.py:126-139 `pop`. -/
def pop : HeapM E K V (Option (K × V)) := do
  let l ← items
  if l.isEmpty then return none
  else
    let maxVal ← lift (getItem l 0)
    let last ← lift (getItem l (l.length - 1))
    let l ← lift (setItem l 0 last)
    put l
    put l.dropLast
    bubbleDown lt
    return some maxVal

/-- heap.py:141-149 `add`. -/
def add (key : K) (value : V) : HeapM E K V Unit := do
  let l ← items
  put (l ++ [(key, value)])
  bubbleUp lt

end HeapM

end Verif

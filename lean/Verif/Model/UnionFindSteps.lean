import Verif.Model.UnionFind

/-!
# Model of `src/tdamapper/utils/unionfind.py`, one access to a dict at a time

`Verif.Model.UnionFind` runs a call to its end. Here a call is a program that makes one access to
`_parent` or `_size` per step, so that it can be interrupted (`KeyboardInterrupt`, a signal handler that
raises) or interleaved with calls of other threads between any two accesses.

Simplification: reading or assigning one entry of a dict is one indivisible step, as in CPython for keys
whose `__hash__` and `__eq__` run no Python code; what happens between two accesses concerns only
local variables, and belongs to the step before.
-/

set_option autoImplicit false

namespace Verif

variable {α : Type} [DecidableEq α]

/-- What to do with the answer of a `find`: return it (unionfind.py:27-42), or go on with `union`
(unionfind.py:52 `x, y = self.find(x), self.find(y)`), after the first or after the second `find`. -/
inductive UFCont (α : Type) where
  | ret
  | first (y : α)
  | second (x : α)
  deriving DecidableEq, Repr

/-- A call under way: the next access to make, and the local variables needed from there on. -/
inductive UFThread (α : Type) where
  /-- unionfind.py:35, about to read `self._parent[root]` in the test of the loop. -/
  | findTest (x root : α) (k : UFCont α)
  /-- unionfind.py:36, about to read `self._parent[root]` in the body of the loop. -/
  | findNext (x root : α) (k : UFCont α)
  /-- unionfind.py:39, about to read `self._parent[tmp]`. -/
  | findRead (tmp root : α) (k : UFCont α)
  /-- unionfind.py:40, about to assign `self._parent[tmp]`. -/
  | findWrite (tmp root parent : α) (k : UFCont α)
  /-- unionfind.py:54, about to read `self._size[x]`. -/
  | sizeX (x y : α)
  /-- unionfind.py:54, about to read `self._size[y]`. -/
  | sizeY (x y : α) (xSize : Nat)
  /-- unionfind.py:59, about to assign `self._parent[to_move]`. -/
  | link (keep move : α) (size : Nat)
  /-- unionfind.py:60, about to assign `self._size[to_keep]`. -/
  | grow (keep : α) (size : Nat)
  /-- The call returned or raised. -/
  | done (r : Py α)
  deriving DecidableEq, Repr

namespace UFThread

/-- unionfind.py:34-35: a call of `find`, up to its first access. -/
def startFind (x : α) : UFThread α := .findTest x x .ret

/-- unionfind.py:52: a call of `union`, up to its first access. -/
def startUnion (x y : α) : UFThread α := .findTest x x (.first y)

/-- unionfind.py:42 `return root`, and what `union` does with it (unionfind.py:52-53, 62-63). -/
def afterFind (root : α) : UFCont α → UFThread α
  | .ret => .done (.ok root)
  | .first y => .findTest y y (.second root)
  | .second x => if x ≠ root then .sizeX x root else .done (.ok x)

/-- unionfind.py:38 the test `tmp != root`. -/
def compressFrom (tmp root : α) (k : UFCont α) : UFThread α :=
  if tmp ≠ root then .findRead tmp root k else afterFind root k

/-- One access to a dict, and the local computation after it. -/
def step (u : UnionFind α) : UFThread α → UnionFind α × UFThread α
  | .findTest x root k =>
    match u.parent.getItem root with
    | .error e => (u, .done (.error e))
    | .ok p => (u, if root ≠ p then .findNext x root k else compressFrom x root k)
  | .findNext x root k =>
    match u.parent.getItem root with
    | .error e => (u, .done (.error e))
    | .ok p => (u, .findTest x p k)
  | .findRead tmp root k =>
    match u.parent.getItem tmp with
    | .error e => (u, .done (.error e))
    | .ok p => (u, .findWrite tmp root p k)
  | .findWrite tmp root parent k =>
    ({ u with parent := u.parent.set tmp root }, compressFrom parent root k)
  | .sizeX x y =>
    match u.size.getItem x with
    | .error e => (u, .done (.error e))
    | .ok s => (u, .sizeY x y s)
  | .sizeY x y xSize =>
    match u.size.getItem y with
    | .error e => (u, .done (.error e))
    | .ok ySize =>
      (u, if xSize < ySize then .link y x (xSize + ySize) else .link x y (xSize + ySize))
  | .link keep move size => ({ u with parent := u.parent.set move keep }, .grow keep size)
  | .grow keep size => ({ u with size := u.size.set keep size }, .done (.ok keep))
  | .done r => (u, .done r)

/-- The call goes on for `n` accesses, with no other call in between. -/
def steps : Nat → UnionFind α → UFThread α → UnionFind α × UFThread α
  | 0, u, t => (u, t)
  | n + 1, u, t => steps n (step u t).1 (step u t).2

/-- Several threads with a call under way each: thread `i` makes one access. -/
def stepAt (u : UnionFind α) (ts : List (UFThread α)) (i : Nat) :
    UnionFind α × List (UFThread α) :=
  match ts[i]? with
  | none => (u, ts)
  | some t => ((step u t).1, ts.set i (step u t).2)

/-- The threads make accesses in the order of `schedule`. -/
def runSchedule : List Nat → UnionFind α → List (UFThread α) → UnionFind α × List (UFThread α)
  | [], u, ts => (u, ts)
  | i :: rest, u, ts => runSchedule rest (stepAt u ts i).1 (stepAt u ts i).2

end UFThread

end Verif

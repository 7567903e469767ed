import Verif.PyDict

/-!
# Model of `src/tdamapper/utils/unionfind.py`

A method returns its result (or exception) together with the object state after
the call, because an exception does not undo earlier writes.
-/

namespace Verif

variable {α : Type} [DecidableEq α]

/-- unionfind.py:9-21: the fields `_parent` and `_size`. -/
structure UnionFind (α : Type) where
  parent : PyDict α α
  size : PyDict α Nat

namespace UnionFind

/-- unionfind.py:23-25 `__init__`, for a re-iterable argument. -/
def init (items : List α) : UnionFind α :=
  ⟨PyDict.ofList (items.map fun x => (x, x)), PyDict.ofList (items.map fun x => (x, 1))⟩

/-- unionfind.py:23-25 `__init__` when `items` is a one-shot iterator (for
instance a generator): line 24 exhausts it, so that line 25 sees nothing. -/
def initFromIterator (items : List α) : UnionFind α :=
  ⟨PyDict.ofList (items.map fun x => (x, x)), PyDict.empty⟩

/-- unionfind.py:34-36, the loop `while root != self._parent[root]`. -/
def rootLoop (parent : PyDict α α) : (fuel : Nat) → α → Py α
  | 0, _ => .error .diverge
  | fuel + 1, root => do
    let p ← parent.getItem root
    if root ≠ p then rootLoop parent fuel p else return root

/-- unionfind.py:37-41, the loop `while tmp != root` (path compression). -/
def compressLoop (root : α) : (fuel : Nat) → PyDict α α → α → Py (PyDict α α)
  | 0, _, _ => .error .diverge
  | fuel + 1, parent, tmp =>
    if tmp ≠ root then do
      let p ← parent.getItem tmp
      compressLoop root fuel (parent.set tmp root) p
    else .ok parent

/-- unionfind.py:27-42 `find`. If the second loop failed, its partial writes
would be kept by Python and are dropped here; it is proved never to fail. -/
def find (u : UnionFind α) (x : α) : Py α × UnionFind α :=
  match rootLoop u.parent (u.parent.len + 1) x with
  | .error e => (.error e, u)
  | .ok root =>
    match compressLoop root (u.parent.len + 1) u.parent x with
    | .error e => (.error e, u)
    | .ok parent => (.ok root, { u with parent })

/-- unionfind.py:44-63 `union`. -/
def union (u : UnionFind α) (x y : α) : Py α × UnionFind α :=
  match u.find x with
  | (.error e, u) => (.error e, u)
  | (.ok x, u) =>
    match u.find y with
    | (.error e, u) => (.error e, u)
    | (.ok y, u) =>
      if x ≠ y then
        match u.size.getItem x with
        | .error e => (.error e, u)
        | .ok xSize =>
          match u.size.getItem y with
          | .error e => (.error e, u)
          | .ok ySize =>
            let (toKeep, toMove) := if xSize < ySize then (y, x) else (x, y)
            (.ok toKeep,
              ⟨u.parent.set toMove toKeep, u.size.set toKeep (xSize + ySize)⟩)
      else (.ok x, u)

end UnionFind

end Verif

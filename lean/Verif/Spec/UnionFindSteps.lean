import Verif.Model.UnionFindSteps
import Verif.Props.UnionFind

/-!
# Specification: interrupted calls and calls of several threads
-/

set_option autoImplicit false

namespace Verif

variable {α : Type} [DecidableEq α]

/-- The call `op`, up to its first access to a dict. -/
def startCall : UFOp α → UFThread α
  | .find x => .startFind x
  | .union x y => .startUnion x y

/-- The call returned or raised. -/
def UFThread.isDone : UFThread α → Bool
  | .done _ => true
  | _ => false

/-- A history of calls, each of which is abandoned after the given number of accesses to the dicts (or
comes to its end before): the object afterwards. -/
def interruptedCalls (u : UnionFind α) : List (UFOp α × ℕ) → UnionFind α
  | [] => u
  | (op, n) :: rest => interruptedCalls (UFThread.steps n u (startCall op)).1 rest

/-- The calls of such a history that came to their end. -/
def finishedCalls (u : UnionFind α) : List (UFOp α × ℕ) → List (UFOp α)
  | [] => []
  | (op, n) :: rest =>
    let s := UFThread.steps n u (startCall op)
    if s.2.isDone then op :: finishedCalls s.1 rest else finishedCalls s.1 rest

end Verif

import Verif.Model.HeapAny
import Verif.Spec.PriorityQueue

/-!
# Specification: a client of a `MaxHeap` whose comparisons may do anything

The client makes a list of calls, catches every exception and goes on.
-/

set_option autoImplicit false

namespace Verif

variable {K V E : Type}

/-- A call of `add(key, value)` or of `pop()`. -/
inductive HeapOp (K V : Type) where
  | add (k : K) (v : V)
  | pop

/-- One call: what it returns or raises (`add` returns `None`), and the heap afterwards. -/
def heapTry (lt : ℕ → K → K → Except E Bool) (s : HeapState K V) :
    HeapOp K V → Except (HeapExc E) (Option (K × V)) × HeapState K V
  | .add k v => (((HeapM.add lt k v s).1).map (fun _ => none), (HeapM.add lt k v s).2)
  | .pop => HeapM.pop lt s

/-- A list of calls. -/
def heapTries (lt : ℕ → K → K → Except E Bool) (s : HeapState K V) :
    List (HeapOp K V) → List (Except (HeapExc E) (Option (K × V))) × HeapState K V
  | [] => ([], s)
  | op :: ops =>
    let r := heapTry lt s op
    let rs := heapTries lt r.2 ops
    (r.1 :: rs.1, rs.2)

/-- The items that the calls add. -/
def addedItems (ops : List (HeapOp K V)) : List (K × V) :=
  ops.filterMap fun | .add k v => some (k, v) | .pop => none

/-- The items that the calls return. -/
def returnedItems (outs : List (Except (HeapExc E) (Option (K × V)))) : List (K × V) :=
  outs.filterMap fun | .ok o => o | .error _ => none

/-- The calls of `pop` that raised. -/
def failedPops (ops : List (HeapOp K V)) (outs : List (Except (HeapExc E) (Option (K × V)))) : ℕ :=
  ((ops.zip outs).filter fun | (.pop, .error _) => true | _ => false).length

/-- The exception, if there is one, was raised by a comparison. -/
def RaisedByComparison {α : Type} (lt : ℕ → K → K → Except E Bool) (r : Except (HeapExc E) α) :
    Prop :=
  ∀ e, r = .error e → ∃ n x y e', lt n x y = .error e' ∧ e = .compare e'

end Verif

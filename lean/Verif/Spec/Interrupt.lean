import Verif.Model.Interrupt
import Verif.Spec.Jobs

/-!
# Specification: calls of `fit` that are interrupted
-/

set_option autoImplicit false

namespace Verif

/-- A call of `fit`, in steps. -/
def FitCall.steps (W : World) (S : FitSteps) (fuel : ℕ) (c : FitCall) : Thread Unit :=
  if c.algorithm then mapperAlgorithmSteps W S fuel c.target c.X c.y
  else mapperClusteringSteps W fuel (fitThread W S fuel fuel) c.target c.X c.y

/-- What the user does: a call of `fit`, which comes to its end (`none`) or is interrupted
after `k` steps (`some k`). -/
structure Attempt where
  call : FitCall
  stop : Option ℕ

/-- The heap after the attempt; exceptions are caught by the caller. -/
def Attempt.run (W : World) (S : FitSteps) (fuel : ℕ) (a : Attempt) (h : Heap) : Heap :=
  match a.stop with
  | none => (a.call.run W fuel h).2
  | some k => (a.call.steps W S fuel).after k h

/-- The heap after a history of attempts. -/
def runAttempts (W : World) (S : FitSteps) (fuel : ℕ) : List Attempt → Heap → Heap
  | [], h => h
  | a :: as, h => runAttempts W S fuel as (a.run W S fuel h)

/-- What the last result of `r` is after a history, given that it was `old` before: a call that comes to its
end replaces it by what it computes, one that fails (or would, had it not been interrupted) leaves
it, and one that is interrupted does one or the other. -/
inductive ResultAfter {α : Type} (r : ℕ) (expected : Input → Option Input → Py α) :
    List Attempt → Option α → Option α → Prop
  | nil (old : Option α) : ResultAfter r expected [] old old
  | other {a : Attempt} {as : List Attempt} {old v : Option α} : a.call.target ≠ r →
      ResultAfter r expected as old v → ResultAfter r expected (a :: as) old v
  | finished {a : Attempt} {as : List Attempt} {old v : Option α} {x : α} : a.call.target = r →
      expected a.call.X a.call.y = .ok x → ResultAfter r expected as (some x) v →
      ResultAfter r expected (a :: as) old v
  | failed {a : Attempt} {as : List Attempt} {old v : Option α} {e : PyErr} : a.call.target = r →
      expected a.call.X a.call.y = .error e → ResultAfter r expected as old v →
      ResultAfter r expected (a :: as) old v
  | interrupted {a : Attempt} {as : List Attempt} {old v : Option α} {k : ℕ} : a.call.target = r →
      a.stop = some k → ResultAfter r expected as old v → ResultAfter r expected (a :: as) old v

end Verif

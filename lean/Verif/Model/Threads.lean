import Verif.Model.Interrupt

/-!
# Model of several threads of the user

The user calls `fit` of estimators from several threads (learn.py:65-91 and 147-184). The threads share one heap; a
schedule chooses which thread takes the next step. The steps are those of Model/Interrupt.lean, with the same
simplifications: cloning an object is one step (the parameters that it reads are not written by
any thread), and so are the charts of a cover, which is a new object.
-/

set_option autoImplicit false

namespace Verif

/-- The heap, and what is left to do in each thread. -/
structure Threads where
  heap : Heap
  threads : List (Thread Unit)

/-- Thread `i` takes a step; `none` if it has ended or does not exist. -/
def Threads.next (c : Threads) (i : ℕ) : Option Threads :=
  match c.threads[i]? with
  | some (.step upd next) => some ⟨upd c.heap, c.threads.set i (next c.heap)⟩
  | _ => none

/-- A whole schedule. -/
def Threads.follow : List ℕ → Threads → Option Threads
  | [], c => some c
  | i :: rest, c => (c.next i).bind (Threads.follow rest)

end Verif

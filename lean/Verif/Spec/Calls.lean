import Mathlib.Data.Nat.Log
import Mathlib.Data.List.Perm.Subperm

/-!
# Specification: calls of the distance function

`calls` is a list of calls of the distance function, each given by its two arguments.
-/

set_option autoImplicit false

namespace Verif

variable {T R E : Type}

/-- Both arguments of every call are entries of the data. -/
def CallsWithin (X : List T) (calls : List (T × T)) : Prop :=
  ∀ c ∈ calls, c.1 ∈ X ∧ c.2 ∈ X

/-- One of the arguments of every call is the query point; the others, with their
multiplicities, are among the entries of the data. -/
def QueriesOnce (q : T) (X : List T) (calls : List (T × T)) : Prop :=
  ∃ others : List T, others.Subperm X ∧
    List.Forall₂ (fun c x => c = (q, x) ∨ c = (x, q)) calls others

/-- `n (log₂ n + 1)` calls, with the logarithm rounded up; three times as many if the vantage
points are chosen among the furthest ones. -/
def buildBudget (pivoting : String) (n : ℕ) : ℕ :=
  (if pivoting = "furthest" then 3 else 1) * (n * (Nat.clog 2 n + 1))

/-- A distance function that may raise returns, when it does not, what `d` returns. -/
def Extends (d : T → T → R) (dE : T → T → Except E R) : Prop :=
  ∀ x y r, dE x y = .ok r → r = d x y

/-- The distance function raises when one of its arguments is `z`. -/
def RaisesAt (dE : T → T → Except E R) (z : T) : Prop :=
  ∀ x, (∃ e, dE x z = .error e) ∧ ∃ e, dE z x = .error e

end Verif

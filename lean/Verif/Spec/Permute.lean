import Mathlib.Logic.Equiv.Basic
import Mathlib.Data.List.Basic
import Mathlib.Algebra.Group.End

/-!
# Specification: simultaneous rearrangement of arrays
-/

namespace Verif

variable {α : Type}

/-- `l'` is `l` with rows moved by `π`: position `m` of `l'` holds what was at
position `π m` of `l`. -/
def Rearranged (π : Equiv.Perm ℕ) (l l' : List α) : Prop :=
  l'.length = l.length ∧ ∀ m : ℕ, l'[m]? = l[π m]?

/-- Same for an optional array: absent stays absent. -/
def RearrangedOpt (π : Equiv.Perm ℕ) : Option (List α) → Option (List α) → Prop
  | none, none => True
  | some l, some l' => Rearranged π l l'
  | _, _ => False

/-- `π` moves no position outside `[s, e)`. -/
def MovesOnly (π : Equiv.Perm ℕ) (s e : ℕ) : Prop :=
  ∀ m : ℕ, m < s ∨ e ≤ m → π m = m

end Verif

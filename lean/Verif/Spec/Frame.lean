import Mathlib.Algebra.CharZero.Defs
import Verif.Model.Frame

/-!
# Specification of the preparation of tables
-/

set_option autoImplicit false

namespace Verif
variable {K : Type}

/-- A table as pandas makes them: all columns have the same length, with different
names. -/
structure Frame.WellFormed (f : Frame K) : Prop where
  lengths : ∀ c ∈ f.columns, c.cells.length = f.rows
  names : (f.columns.map Column.name).Nodup

/-- The column holds numbers, at least one of which is present. -/
def Column.IsUsable (c : Column K) : Prop :=
  ∃ l, c.cells = .number l ∧ ∃ x, some x ∈ l

/-- `m` is the mean of the present values: that number for each of them gives the
same total. -/
def IsMean [Field K] (m : K) (l : List (Option K)) : Prop :=
  (l.filterMap id).sum = ((l.filterMap id).length : K) * m

/-- `d` is `c` with each missing value replaced by the mean of the present ones. -/
def Column.FilledBy [Field K] (c d : Column K) : Prop :=
  d.name = c.name ∧ ∃ l r m, c.cells = .number l ∧ d.cells = .number r ∧ IsMean m l ∧
    r.length = l.length ∧ ∀ (i : ℕ) (x : Option K), l[i]? = some x → r[i]? = some (some (x.getD m))

end Verif

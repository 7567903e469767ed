import Mathlib.Algebra.Field.Defs
import Mathlib.Algebra.BigOperators.Group.List.Basic
import Verif.Py

/-!
# Model of the data tables of the app, and of `fix_data`

A pandas `DataFrame` is a number of rows (its index is `0 … rows-1`) and a list of
named columns. A column holds numbers or something else (text, booleans), and any
cell may be missing. Numbers are elements of a field: arithmetic is exact, and there
are no infinite values.
-/

set_option autoImplicit false

namespace Verif

/-- The cells of a column, `none` for a missing value. -/
inductive Cells (K : Type) where
  | number (l : List (Option K))
  | other (l : List (Option String))
  deriving DecidableEq

/-- The number of cells. -/
def Cells.length {K : Type} : Cells K → ℕ
  | .number l => l.length
  | .other l => l.length

/-- A named column. -/
structure Column (K : Type) where
  name : String
  cells : Cells K
  deriving DecidableEq

/-- A table. -/
structure Frame (K : Type) where
  rows : ℕ
  columns : List (Column K)
  deriving DecidableEq

namespace Frame
variable {K : Type}

/-- `pd.DataFrame()`. -/
def none : Frame K := ⟨0, []⟩

/-- `df.empty`: an axis has length 0. -/
def empty (f : Frame K) : Bool := f.rows == 0 || f.columns.isEmpty

end Frame

variable {K : Type}

/-- app.py:154 `df.select_dtypes(include="number")`. -/
def selectNumber (f : Frame K) : Frame K :=
  { f with columns := f.columns.filter fun c =>
      match c.cells with
      | .number _ => true
      | .other _ => false }

/-- app.py:155 `df.dropna(axis=1, how="all")`: drop the columns without any value. -/
def dropEmpty (f : Frame K) : Frame K :=
  { f with columns := f.columns.filter fun c =>
      match c.cells with
      | .number l => l.any Option.isSome
      | .other l => l.any Option.isSome }

/-- `mean` of a column of numbers, skipping missing values; missing if there is no value. -/
def mean [Field K] (l : List (Option K)) : Option K :=
  let present := l.filterMap id
  if present.isEmpty then none else some (present.sum / (present.length : K))

/-- app.py:156 `df.mean()`: the mean of each (numeric) column, by name. -/
def means [Field K] (f : Frame K) : List (String × Option K) :=
  f.columns.map fun c => (c.name, match c.cells with
    | .number l => mean l
    | .other _ => none)

/-- `column.fillna(v)` of a column of numbers. -/
def fillCells (v : Option K) : Cells K → Cells K
  | .number l => .number (l.map fun x => x.or v)
  | .other l => .other l

/-- app.py:156 `df.fillna(values)`: for each name and value of `values` the column of
that name is filled. -/
def fillna (values : List (String × Option K)) (f : Frame K) : Frame K :=
  { f with columns := values.foldl (fun cols kv => cols.map fun c =>
      if c.name = kv.1 then ⟨c.name, fillCells kv.2 c.cells⟩ else c) f.columns }

/-- app.py:144-157 `fix_data`. -/
def fixData [Field K] (data : Frame K) : Frame K :=
  let df := selectNumber data
  let df := dropEmpty df
  fillna (means df) df

end Verif

import Verif.Spec.Metric
import Mathlib.Algebra.Order.Field.Basic
import Mathlib.Data.Set.Basic

/-!
# Specification: covers

Nothing here refers to the model: only to datasets, distances and indices.
-/

set_option autoImplicit false

namespace Verif

section
variable {T R : Type}

/-- `out` lists, without repetition, exactly the indices of the points of `X`
that satisfy `P`. -/
def ListsExactly (X : List T) (P : T → Prop) (out : List ℕ) : Prop :=
  out.Nodup ∧ ∀ j : ℕ, j ∈ out ↔ ∃ z, X[j]? = some z ∧ P z

/-- `charts` are non-empty, repetition-free lists of valid indices of a dataset
of `n` points. -/
def WellFormedCharts (n : ℕ) (charts : List (List ℕ)) : Prop :=
  ∀ chart ∈ charts, chart ≠ [] ∧ chart.Nodup ∧ ∀ i ∈ chart, i < n

/-- Every index of a dataset of `n` points is in some chart. -/
def Covers (n : ℕ) (charts : List (List ℕ)) : Prop :=
  ∀ i, i < n → ∃ chart ∈ charts, i ∈ chart

/-- `out` consists of `min k |X|` distinct valid indices, and no index left out
is strictly closer to `q` than one returned. -/
def NearestIndices [LE R] (d : T → T → R) (q : T) (k : ℕ) (X : List T) (out : List ℕ) : Prop :=
  out.Nodup ∧ out.length = min k X.length ∧ (∀ i ∈ out, i < X.length) ∧
    ∀ i ∈ out, ∀ (j : ℕ), j ∉ out → ∀ xi xj, X[i]? = some xi → X[j]? = some xj → d q xi ≤ d q xj
end

section Grid
variable {R : Type} [Field R] [LinearOrder R] {m : ℕ}

/-- Left end of cell `c` when `[lo, hi]` is split in `n` equal cells. -/
def cellLeft (lo hi : R) (n : ℕ) (c : ℤ) : R := lo + c * ((hi - lo) / n)

/-- Right end of cell `c`. -/
def cellRight (lo hi : R) (n : ℕ) (c : ℤ) : R := lo + (c + 1) * ((hi - lo) / n)

/-- The cell to which a query at `x` belongs: cells contain their left end, the
last one extends to the right without end, and the subdivision is continued to
the left of `lo` with negative numbers. -/
def QueryCell (lo hi : R) (n : ℕ) (x : R) (c : ℤ) : Prop :=
  c < n ∧ cellLeft lo hi n c ≤ x ∧ (x < cellRight lo hi n c ∨ c + 1 = n)

/-- `x` lies in cell `c` of `[lo, hi]`: cells contain their left end, and the
last one also its right end. -/
def InCell (lo hi : R) (n : ℕ) (x : R) (c : ℤ) : Prop :=
  0 ≤ c ∧ c < n ∧ cellLeft lo hi n c ≤ x ∧
    (x < cellRight lo hi n c ∨ (c + 1 = n ∧ x ≤ cellRight lo hi n c))

/-- The width of an enlarged cell with overlap fraction `p`: the cell is the
fraction `1 - p` of it. -/
def boxWidth (lo hi : R) (n : ℕ) (p : R) : R := ((hi - lo) / n) / (1 - p)

/-- Membership in the open interval around cell `c`: the cell enlarged on both
sides by half of the fraction `p` of the enlarged width. -/
def InBox (lo hi : R) (n : ℕ) (p : R) (c : ℤ) (z : R) : Prop :=
  cellLeft lo hi n c - p * boxWidth lo hi n p / 2 < z ∧
    z < cellRight lo hi n c + p * boxWidth lo hi n p / 2

/-- `lo` and `hi` are the coordinatewise least and greatest values in `X`. -/
def IsBounds (X : List (Fin m → R)) (lo hi : Fin m → R) : Prop :=
  ∀ i, (∃ x ∈ X, x i = lo i) ∧ (∃ x ∈ X, x i = hi i) ∧ ∀ x ∈ X, lo i ≤ x i ∧ x i ≤ hi i

/-- Coordinates on which the dataset spreads by more than the machine epsilon
of double precision. The others count as constant. -/
def Spread (lo hi : Fin m → R) (i : Fin m) : Prop := 1 / 2 ^ 52 < hi i - lo i

instance (lo hi : Fin m → R) (i : Fin m) : Decidable (Spread lo hi i) := by
  unfold Spread; infer_instance

/-- The right end of the subdivided range: the range of a constant coordinate
is taken to be `n` unit cells from the constant value on. -/
def gridHi (lo hi : Fin m → R) (n : ℕ) (i : Fin m) : R :=
  if Spread lo hi i then hi i else lo i + n

/-- `c` gives the grid cell of the point `x`; constant coordinates have a single
cell, number 0. -/
def IsCell (lo hi : Fin m → R) (n : ℕ) (x : Fin m → R) (c : Fin m → ℤ) : Prop :=
  ∀ i, (Spread lo hi i → InCell (lo i) (hi i) n (x i) (c i)) ∧ (¬ Spread lo hi i → c i = 0)

/-- `z` is in the open box around the cell `c`; constant coordinates impose no
constraint. -/
def InHypercube (lo hi : Fin m → R) (n : ℕ) (p : R) (c : Fin m → ℤ) (z : Fin m → R) : Prop :=
  ∀ i, Spread lo hi i → InBox (lo i) (hi i) n p (c i) (z i)

end Grid

end Verif

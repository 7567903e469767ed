import Verif.Py
import Mathlib.Data.List.Basic
import Mathlib.Data.Rat.Init
import Mathlib.Algebra.BigOperators.Group.List.Defs

/-!
# Model of `EstimatorMixin` of `src/tdamapper/_common.py`

An argument of `fit` is what the code observes of it: whether it has a `toarray`
attribute, and what `numpy.asarray` makes of it. An array has a shape, a kind of
dtype and its entries in row-major order. Boolean, integer and floating point
dtypes are the kind `real`; `text` stands for every dtype that is neither numeric
nor `object` (strings, bytes, records), for which `numpy.isnan` raises `TypeError`.
-/

set_option autoImplicit false

namespace Verif

/-- A floating point value. Finite values are rational numbers. -/
inductive FloatVal where
  | finite (x : Rat)
  | nan
  | posInf
  | negInf

/-- The entries of an array, by kind of dtype. An entry of an `object` array is
what `float(entry)` does. -/
inductive Entries where
  | real (l : List FloatVal)
  | complex (n : Nat)
  | text (n : Nat)
  | object (l : List (Py FloatVal))

/-- A `numpy.ndarray`. -/
structure NdArray where
  shape : List Nat
  entries : Entries

/-- An argument of `fit`. -/
structure Input where
  hasToarray : Bool
  asArray : Py NdArray

/-- A validated array: real entries. -/
structure RealArray where
  shape : List Nat
  vals : List FloatVal

/-- `numpy.iscomplexobj`. -/
def isComplex : Entries → Bool
  | .complex _ => true
  | _ => false

/-- `[float(e) for e in l]`, as done by `np.array(X_, dtype=float)`. -/
def floatAll : List (Py FloatVal) → Py (List FloatVal)
  | [] => .ok []
  | e :: rest => do
    let v ← e
    let vs ← floatAll rest
    return v :: vs

/-- _common.py:101-105: `object` arrays are converted, others kept. -/
def convertObject : Entries → Py Entries
  | .object l => do
    let vs ← floatAll l
    return .real vs
  | e => .ok e

/-- `np.isnan(v)` or `np.isinf(v)`. -/
def isNanOrInf : FloatVal → Bool
  | .finite _ => false
  | _ => true

/-- _common.py:107-113: `np.isnan(X_).any() or np.isinf(X_).any()`; `TypeError` for
a dtype without `isnan`. The branch for `object` is not taken after the conversion. -/
def anyNanOrInf : Entries → Py Bool
  | .real l => .ok (l.any isNanOrInf)
  | .complex _ => .ok false
  | .text _ => .error .typeError
  | .object _ => .error .typeError

/-- The entries after validation. -/
def realEntries : Entries → Py (List FloatVal)
  | .real l => .ok l
  | _ => .error .typeError

/-- _common.py:67-117 `_validate_X_y`. -/
def validateXy (X y : Input) : Py (RealArray × RealArray) := do
  if X.hasToarray then .error .valueError
  let X' ← X.asArray
  let y' ← y.asArray
  if X'.shape.prod = 0 then .error .valueError
  if y'.shape.prod = 0 then .error .valueError
  if X'.shape.length = 1 then .error .valueError
  if isComplex X'.entries || isComplex y'.entries then .error .valueError
  let ex ← convertObject X'.entries
  let ey ← convertObject y'.entries
  let badX ← anyNanOrInf ex
  if badX then .error .valueError
  let badY ← anyNanOrInf ey
  if badY then .error .valueError
  let vx ← realEntries ex
  let vy ← realEntries ey
  return (⟨X'.shape, vx⟩, ⟨y'.shape, vy⟩)

/-- `list(a)`: the sub-arrays along the first axis; `TypeError` for a scalar. -/
def rowsOf (a : RealArray) : Py (List RealArray) :=
  match a.shape with
  | [] => .error .typeError
  | n :: s => .ok ((List.range n).map fun i => ⟨s, (a.vals.drop (i * s.prod)).take s.prod⟩)

/-- _common.py:119-126: the value `X.shape[1]` of `n_features_in_`. -/
def nFeatures (a : RealArray) : Py Nat := getItem a.shape 1

end Verif

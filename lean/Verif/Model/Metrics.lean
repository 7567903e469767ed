import Verif.Py
import Verif.PyDict
import Mathlib.Analysis.SpecialFunctions.Pow.Real
import Mathlib.Algebra.BigOperators.Fin

/-!
# Model of `src/tdamapper/utils/metrics.py` and `src/tdamapper/utils/_metrics.py`

Numbers are exact reals. A vector is a function `Fin n → ℝ`: the two arguments
of a distance have the same dimension, so NumPy broadcasting does not arise.
`@njit(fastmath=True)` only permits reassociating floating-point operations,
which has no effect on reals. NaN is not modelled.
-/

set_option autoImplicit false

namespace Verif

/-- A real vector of dimension `n`. -/
abbrev RVec (n : Nat) := Fin n → ℝ

/-- The `ord` argument of `np.linalg.norm`, a number that may be infinite. -/
inductive POrder where
  | real (p : ℝ)
  | posInf
  | negInf

/-- `np.linalg.norm(v, ord)` for a one-dimensional array, as documented by NumPy:
`max(abs(v))` for `inf`, `min(abs(v))` for `-inf`, `sum(v != 0)` for `0`,
`sum(abs(v)**ord)**(1./ord)` otherwise. `ord=None` is the case `2`. The norm of
an empty vector is `0` (Numba's behaviour). For a negative `ord` a zero entry
gives `0.0**ord = inf` and `inf**(1./ord) = 0`. -/
noncomputable def npNorm {n : Nat} (ord : POrder) (v : RVec n) : ℝ :=
  match ord with
  | .posInf => (List.ofFn (fun i => |v i|)).foldl max 0
  | .negInf =>
    match List.ofFn (fun i => |v i|) with
    | [] => 0
    | a :: l => l.foldl min a
  | .real p =>
    open Classical in
    if p = 0 then ((Finset.univ.filter (fun i => v i ≠ 0)).card : ℝ)
    else if p < 0 ∧ ∃ i, v i = 0 then 0
    else (∑ i, |v i| ^ p) ^ (1 / p)

/-- `np.linalg.norm(v)`: the square root of the sum of the squares. -/
noncomputable def npNorm2 {n : Nat} (v : RVec n) : ℝ := Real.sqrt (∑ i, v i * v i)

/-- A distance function: a call may raise. -/
abbrev Dist (n : Nat) := RVec n → RVec n → Py ℝ

/-- _metrics.py:6-10 `euclidean`, returned by metrics.py:61-70. -/
noncomputable def euclidean {n : Nat} : Dist n := fun x y => .ok (npNorm2 (x - y))

/-- _metrics.py:13-17 `manhattan`, returned by metrics.py:73-82. -/
noncomputable def manhattan {n : Nat} : Dist n := fun x y => .ok (npNorm (.real 1) (x - y))

/-- _metrics.py:20-24 `chebyshev`, returned by metrics.py:85-94. -/
noncomputable def chebyshev {n : Nat} : Dist n := fun x y => .ok (npNorm .posInf (x - y))

open Classical in
/-- metrics.py:97-119 `minkowski`, with _metrics.py:27-31. `np.isinf` holds of
both infinities. -/
noncomputable def minkowski {n : Nat} (p : POrder) : Dist n :=
  match p with
  | .real p =>
    if p = 1 then manhattan
    else if p = 2 then euclidean
    else fun x y => .ok (npNorm (.real p) (x - y))
  | .posInf => chebyshev
  | .negInf => chebyshev

/-- `np.dot(x, y)` of two vectors. -/
def npDot {n : Nat} (x y : RVec n) : ℝ := ∑ i, x i * y i

open Classical in
/-- _metrics.py:34-43 `cosine`, returned by metrics.py:122-142. Numba compiles the
division with Python's error model: dividing by zero raises. -/
noncomputable def cosine {n : Nat} : Dist n := fun x y =>
  let xy := npDot x y
  let xx := npNorm2 x
  let yy := npNorm2 y
  if xx * yy = 0 then .error .zeroDivisionError
  else
    let similarity := xy / (xx * yy)
    .ok (Real.sqrt (2 * (1 - similarity)))

/-- The first argument of `get_metric`: a callable, a string, or some other
object, which is neither callable nor equal to any string. -/
inductive MetricArg (n : Nat) where
  | callable (f : Dist n)
  | name (s : String)
  | other

/-- The value of a keyword argument: a number, or some object that is not one. -/
inductive KwVal where
  | num (p : POrder)
  | other

/-- Call of a function without parameters on keyword arguments: any argument is
unexpected. -/
def callNoArgs {α : Type} (f : α) (kwargs : PyDict String KwVal) : Py α :=
  if kwargs.items.isEmpty then .ok f else .error .typeError

/-- Call of `minkowski(p)` on keyword arguments: `p` is required, any other one is
unexpected. A `p` that is not a number equals neither 1 nor 2 and makes
`np.isinf` raise `TypeError`. -/
noncomputable def callMinkowski {n : Nat} (kwargs : PyDict String KwVal) : Py (Dist n) :=
  match kwargs.items with
  | [(k, v)] =>
    if k = "p" then
      match v with
      | .num p => .ok (minkowski p)
      | .other => .error .typeError
    else .error .typeError
  | _ => .error .typeError

/-- metrics.py:145-169 `get_metric`. -/
noncomputable def getMetric {n : Nat} (metric : MetricArg n) (kwargs : PyDict String KwVal) :
    Py (Dist n) :=
  match metric with
  | .callable f => .ok f
  | .other => .error .valueError
  | .name s =>
    if s = "euclidean" then callNoArgs euclidean kwargs
    else if s = "manhattan" then callNoArgs manhattan kwargs
    else if s = "minkowski" then callMinkowski kwargs
    else if s = "chebyshev" then callNoArgs chebyshev kwargs
    else if s = "cosine" then callNoArgs cosine kwargs
    else .error .valueError

/-- metrics.py:43-58 `get_supported_metrics`: the members of `MetricLiteral`. -/
def supportedMetrics : List String :=
  ["euclidean", "manhattan", "minkowski", "chebyshev", "cosine"]

end Verif

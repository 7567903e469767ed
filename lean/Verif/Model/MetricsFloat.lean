import Verif.Model.Metrics
import Verif.Model.Binary

/-!
# Model of `src/tdamapper/utils/_metrics.py` with floating-point numbers

The code of `Verif.Model.Metrics` on numbers whose operations may round or yield NaN. The
routines called by the source (`np.linalg.norm`, `np.dot`, `np.sqrt` as compiled by Numba) are
a parameter, `Libm`, because `fastmath=True` lets the compiler add up the terms of a sum in
any order, and because the norm and the scalar product may come from a BLAS library.
`Libm.Textbook` says that they are computed by the textbook formulas, in any order of addition.

Simplifications: the arguments of a distance have the same dimension; contraction of a product
and a sum into one operation is not modelled, nor is the licence `fastmath` gives to treat a
result that is NaN as undefined: NaN is computed as IEEE 754 says.
-/

set_option autoImplicit false

namespace Verif

/-- The library routines used by `_metrics.py`: `abs` and `pow` are those inside
`np.linalg.norm`, `sum` is a loop adding up the entries of an array, `nrm2` the norm computed for
`ord=None` and `ord=2`, `dot` is `np.dot`, `isInf` is `np.isinf`, and `one` and `two` are the
literals `1.0` and `2.0`. -/
structure Libm (R : Type) where
  abs : R → R
  sqrt : R → R
  pow : R → R → R
  isInf : R → Bool
  one : R
  two : R
  sum : ∀ {n : ℕ}, (Fin n → R) → R
  nrm2 : ∀ {n : ℕ}, (Fin n → R) → R
  dot : ∀ {n : ℕ}, (Fin n → R) → (Fin n → R) → R

/-- An order of adding up the `n` entries of an array: `zero` is the start value of the
accumulator. -/
inductive SumTree (n : ℕ) where
  | zero
  | leaf (i : Fin n)
  | node (l r : SumTree n)

namespace SumTree
variable {n : ℕ} {R : Type}

/-- The result of the additions. -/
def eval [Zero R] [Add R] (v : Fin n → R) : SumTree n → R
  | zero => 0
  | leaf i => v i
  | node l r => l.eval v + r.eval v

/-- The entries added up, from left to right. -/
def leaves : SumTree n → List (Fin n)
  | zero => []
  | leaf i => [i]
  | node l r => l.leaves ++ r.leaves

/-- The number of additions an entry goes through, at most. -/
def depth : SumTree n → ℕ
  | zero => 0
  | leaf _ => 0
  | node l r => max l.depth r.depth + 1

/-- The loop of the source: `((0 + v[0]) + v[1]) + ...`. -/
def loop (n : ℕ) : SumTree n :=
  (List.finRange n).foldl (fun t i => node t (leaf i)) zero

end SumTree

section
variable {R : Type} [Zero R] [Neg R] [Add R] [Sub R] [Mul R] [Div R] {n : ℕ}

/-- The routines compute by the textbook formulas, adding up arrays of length `n` in the order
`S n`. -/
structure Libm.Textbook (L : Libm R) (S : ∀ n, SumTree n) : Prop where
  sum : ∀ {n : ℕ} (v : Fin n → R), L.sum v = (S n).eval v
  nrm2 : ∀ {n : ℕ} (v : Fin n → R), L.nrm2 v = L.sqrt ((S n).eval (fun i => v i * v i))
  dot : ∀ {n : ℕ} (x y : Fin n → R), L.dot x y = (S n).eval (fun i => x i * y i)

/-- _metrics.py:6-10 `euclidean`. -/
def floatEuclidean (L : Libm R) (x y : Fin n → R) : R := L.nrm2 (fun i => x i - y i)

/-- _metrics.py:13-17 `manhattan`. -/
def floatManhattan (L : Libm R) (x y : Fin n → R) : R := L.sum (fun i => L.abs (x i - y i))

/-- _metrics.py:20-24 `chebyshev`: Numba's loop for `ord=np.inf`, which starts with the first
entry and replaces the result by every larger one. -/
def floatChebyshev [LT R] [DecidableLT R] (L : Libm R) (x y : Fin n → R) : R :=
  match List.ofFn (fun i => L.abs (x i - y i)) with
  | [] => 0
  | a :: l => l.foldl (fun ret v => if ret < v then v else ret) a

/-- _metrics.py:27-31 `minkowski`, for an `ord` that is not `1`, `2` or infinite: NumPy's
`sum(v != 0)` for `ord=0` and `sum(abs(v)**ord)**(1./ord)` otherwise. -/
def floatNormP [DecidableEq R] (L : Libm R) (p : R) (v : Fin n → R) : R :=
  if p = 0 then L.sum (fun i => if v i = 0 then 0 else L.one)
  else L.pow (L.sum (fun i => L.pow (L.abs (v i)) p)) (L.one / p)

/-- metrics.py:97-119 `minkowski`, with _metrics.py:27-31. -/
def floatMinkowski [LT R] [DecidableLT R] [DecidableEq R] (L : Libm R) (p : R)
    (x y : Fin n → R) : R :=
  if p = L.one then floatManhattan L x y
  else if p = L.two then floatEuclidean L x y
  else if L.isInf p then floatChebyshev L x y
  else floatNormP L p (fun i => x i - y i)

/-- _metrics.py:34-43 `cosine`. Numba compiles the division with Python's error model:
dividing by zero raises. -/
def floatCosine [DecidableEq R] (L : Libm R) (x y : Fin n → R) : Py R :=
  let xy := L.dot x y
  let xx := L.nrm2 x
  let yy := L.nrm2 y
  if xx * yy = 0 then .error .zeroDivisionError
  else
    let similarity := xy / (xx * yy)
    .ok (L.sqrt (L.two * (L.one - similarity)))

end

/-! ### Square roots of binary numbers -/

/-- The largest `a + r`, with `r` below `2 ^ k`, whose square is at most `n`. -/
def isqrtAux (n : ℕ) : ℕ → ℕ → ℕ
  | 0, a => a
  | k + 1, a => if (a + 2 ^ k) * (a + 2 ^ k) ≤ n then isqrtAux n k (a + 2 ^ k) else isqrtAux n k a

/-- The square root of a non-negative number rounded to `b + 1` bits, to nearest: with
`2 ^ (2 f) ≤ q < 2 ^ (2 f + 2)` it is the multiple of `2 ^ (f - b)` next to the root. -/
def sqrtTo (b : ℕ) (q : ℚ) : ℚ :=
  if q = 0 then 0 else
  let u : ℚ := 2 ^ (Int.log 2 q / 2 - b)
  let t : ℚ := q / (u * u)
  let s : ℕ := isqrtAux ⌊t⌋₊ (b + 1) 0
  if t ≤ (s + 1 / 2) * (s + 1 / 2) then s * u else (s + 1) * u

/-- IEEE 754 numbers of 53 bits without overflow and underflow, and NaN. -/
inductive F64 where
  | fin (x : Bin 52)
  | nan

namespace F64

instance : DecidableEq F64 := fun x y =>
  match x, y with
  | fin a, fin b => if h : a = b then isTrue (by rw [h]) else isFalse (by simpa using h)
  | nan, nan => isTrue rfl
  | fin _, nan => isFalse (by simp)
  | nan, fin _ => isFalse (by simp)

/-- Comparisons with NaN are false. -/
def lt : F64 → F64 → Prop
  | fin a, fin b => a < b
  | _, _ => False

/-- Comparisons with NaN are false. -/
def le : F64 → F64 → Prop
  | fin a, fin b => a ≤ b
  | _, _ => False

instance : LT F64 := ⟨lt⟩
instance : LE F64 := ⟨le⟩

instance : DecidableLT F64 := fun x y =>
  match x, y with
  | fin a, fin b => inferInstanceAs (Decidable (a < b))
  | nan, _ => isFalse (fun h => by cases h)
  | fin _, nan => isFalse (fun h => by cases h)

instance : DecidableLE F64 := fun x y =>
  match x, y with
  | fin a, fin b => inferInstanceAs (Decidable (a ≤ b))
  | nan, _ => isFalse (fun h => by cases h)
  | fin _, nan => isFalse (fun h => by cases h)

/-- An operation on numbers, extended by NaN. -/
def map2 (f : Bin 52 → Bin 52 → Bin 52) : F64 → F64 → F64
  | fin a, fin b => fin (f a b)
  | _, _ => nan

instance : Zero F64 := ⟨fin 0⟩
instance : Neg F64 := ⟨fun | fin a => fin (-a) | nan => nan⟩
instance : Add F64 := ⟨map2 (· + ·)⟩
instance : Sub F64 := ⟨map2 (· - ·)⟩
instance : Mul F64 := ⟨map2 (· * ·)⟩
/-- A division by zero gives NaN (infinities are not modelled). -/
instance : Div F64 := ⟨fun x y => if y = 0 then nan else map2 (· / ·) x y⟩

/-- The rounded value of a rational number. -/
def of (q : ℚ) : F64 := fin (Bin.of 52 q)

def abs : F64 → F64
  | fin a => fin (Bin.of 52 |a.1|)
  | nan => nan

/-- The rounded square root; NaN for negative numbers. -/
def sqrt : F64 → F64
  | fin a => if a.1 < 0 then nan else fin (Bin.of 52 (sqrtTo 52 a.1))
  | nan => nan

/-- The library routines in double precision, adding up in the order of the loop; `pow` is a
parameter. -/
def libm (pow : F64 → F64 → F64) : Libm F64 where
  abs := abs
  sqrt := sqrt
  pow := pow
  isInf := fun _ => false
  one := of 1
  two := of 2
  sum := fun {n} v => (SumTree.loop n).eval v
  nrm2 := fun {n} v => sqrt ((SumTree.loop n).eval (fun i => v i * v i))
  dot := fun {n} x y => (SumTree.loop n).eval (fun i => x i * y i)

end F64

end Verif

import Mathlib.Analysis.SpecialFunctions.Pow.Real

/-!
# Model of the default overlap fraction in `src/tdamapper/cover.py`
-/

set_option autoImplicit false

namespace Verif

/-- cover.py:340-342 `_get_overlap_frac`, over the reals. Python raises
`ZeroDivisionError` for `dim = 0`; the model is used with `dim ≥ 1` only. -/
noncomputable def getOverlapFrac (dim : ℕ) (overlapVolFrac : ℝ) : ℝ :=
  let beta := (1 - overlapVolFrac) ^ ((1 : ℝ) / dim)
  1 - 1 / (2 - beta)

/-- cover.py:385: the value used when `overlap_frac` is `None`. -/
noncomputable def defaultOverlap (dim : ℕ) : ℝ := getOverlapFrac dim (1 / 2)

end Verif

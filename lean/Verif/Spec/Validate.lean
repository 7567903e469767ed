import Verif.Model.Validate

/-!
# Specification: acceptable input data
-/

set_option autoImplicit false

namespace Verif

/-- The array holds the real numbers (or NaN, infinities) `l`: it has a real dtype,
or dtype `object` with every entry convertible by `float`. -/
inductive HoldsFloats : Entries → List FloatVal → Prop
  | real (l : List FloatVal) : HoldsFloats (.real l) l
  | object (l : List FloatVal) : HoldsFloats (.object (l.map .ok)) l

/-- The array has a complex dtype. -/
def HoldsComplex (e : Entries) : Prop := ∃ n, e = .complex n

/-- The array holds numbers. -/
def HoldsNumbers (e : Entries) : Prop := HoldsComplex e ∨ ∃ l, HoldsFloats e l

/-- A finite number. -/
def IsFinite (v : FloatVal) : Prop := ∃ x, v = .finite x

/-- The array holds a NaN or an infinity. -/
def HoldsNonFinite (e : Entries) : Prop := ∃ l v, HoldsFloats e l ∧ v ∈ l ∧ ¬ IsFinite v

/-- The array has no entry: some dimension is zero. -/
def NoEntries (a : NdArray) : Prop := 0 ∈ a.shape

/-- The documented reasons to reject the data. -/
def Rejected (X : Input) (aX ay : NdArray) : Prop :=
  X.hasToarray = true ∨ NoEntries aX ∨ NoEntries ay ∨ aX.shape.length = 1 ∨
    HoldsComplex aX.entries ∨ HoldsComplex ay.entries ∨
    HoldsNonFinite aX.entries ∨ HoldsNonFinite ay.entries

/-- All values of the array are finite. -/
def AllFinite (a : RealArray) : Prop := ∀ v ∈ a.vals, IsFinite v

end Verif

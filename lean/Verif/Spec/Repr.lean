import Verif.Model.Repr
import Verif.Spec.Objects

/-!
# Specifications for `__repr__`
-/

set_option autoImplicit false

namespace Verif

/-- The classes of all objects are known, their constructors assign exactly the public
attributes of those objects, and the default values are no estimators. -/
def Constructible (C : Classes) (h : Heap) : Prop :=
  ∀ (r : ℕ) (o : Obj), h[r]? = some o → ∃ c, ParamsByInit C o c ∧
    ∀ k v, c.init.get? k = some v → IsPlain v

/-- `Class(k1=t1, k2=t2)`. -/
def callText (cls : String) (args : List (String × String)) : String :=
  cls ++ "(" ++ String.intercalate ", " (args.map fun a => a.1 ++ "=" ++ a.2) ++ ")"

end Verif

import Verif.Model.Library

/-!
# Model of the constructors

`__init__` of the estimators of the library and Python's binding of arguments to
parameters.
-/

set_option autoImplicit false

namespace Verif

/-- The arguments of a call: positional ones, and keyword arguments. -/
structure Args where
  pos : List Val
  kw : List (String × Val)

/-- Binding of the arguments of a call to the parameters of the function, in Python: too many
positional arguments, an unknown keyword, or a parameter given twice raise `TypeError`. -/
def bindArgs (params : List String) (a : Args) : Py (List (String × Val)) :=
  if params.length < a.pos.length then .error .typeError
  else
    let bound := params.zip a.pos ++ a.kw
    if (bound.map Prod.fst).Nodup ∧ ∀ k ∈ a.kw.map Prod.fst, k ∈ params then .ok bound
    else .error .typeError

/-- cover.py:111-127, 212-228, 317-331, 449-465, 507-523, 589-605, core.py:320-324, learn.py:55-63 and 133-145: the
constructors assign each parameter, or its default, to the attribute of that name, in the order
of the parameters. The defaults are those of `World.classes` and `library`. -/
def construct (W : World) (cls : String) (a : Args) : Eff ℕ :=
  match W.classes cls with
  | none => Eff.lift (.error .typeError)
  | some c => do
    let bound ← Eff.lift (bindArgs c.init.keys a)
    alloc cls (bound.foldl (fun d e => d.set e.1 e.2) c.init)

end Verif

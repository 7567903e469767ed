import Verif.Model.Objects

/-!
# Model of `ParamsMixin.__repr__` of `src/tdamapper/_common.py`

`atom` is Python's `repr` of a value that is no object of this model; `method` that of a
bound method of a new object.
-/

set_option autoImplicit false

namespace Verif

/-- Python's `repr` of other values. -/
structure Reprs where
  atom : Val → String
  method : String → String → String

/-- `repr(getattr(obj_noargs, k))` for a new object of class `cls`, _common.py:184-185;
`rep` is `repr`. -/
def reprDefault (R : Reprs) (rep : Val → Py String) (cls : String) (c : ClassInfo) (k : String) :
    Py String :=
  match c.init.get? k with
  | some v => rep v
  | none => if k ∈ c.members then .ok (R.method cls k) else .error .attributeError

/-- _common.py:181-188: the loop over `self.__dict__.items()`. -/
def reprArgs (R : Reprs) (rep : Val → Py String) (cls : String) (c : ClassInfo) :
    List (String × Val) → Py (List String)
  | [] => .ok []
  | (k, v) :: rest =>
    if !isParamPublic k then reprArgs R rep cls c rest
    else do
      let d ← reprDefault R rep cls c k
      let s ← rep v
      let out ← reprArgs R rep cls c rest
      return if s = d then out else (k ++ "=" ++ s) :: out

/-- _common.py:178-189 `__repr__`. -/
def reprVal (C : Classes) (R : Reprs) (h : Heap) : (fuel : ℕ) → Val → Py String
  | 0, _ => .error .diverge
  | fuel + 1, .obj r => do
    let o ← deref h r
    match C o.cls with
    | none => .error .typeError
    | some c => do
      let args ← reprArgs R (reprVal C R h fuel) o.cls c o.attrs.items
      return o.cls ++ "(" ++ String.intercalate ", " args ++ ")"
  | _ + 1, v => .ok (R.atom v)

end Verif

import Verif.Model.Core
import Mathlib.Data.Int.Notation

/-!
# Model of estimator objects: `ParamsMixin` and `clone` of `src/tdamapper/_common.py`

Estimators are objects on a heap: an address is an index in a list of objects, and
an attribute can hold the address of another object, so that sharing is explicit.
Every object on the heap is an instance of a class deriving from `ParamsMixin`
(core.py, cover.py, learn.py, or a user's class); values without a `get_params`
method are the other constructors of `Val`.

Recursion takes fuel, the interpreter's recursion limit; exceeding it
(`RecursionError`) is `diverge`. The heap left behind by a failing call of
`set_params` is not modelled.
-/

set_option autoImplicit false

namespace Verif

/-- A Python value held by an attribute. `opaque` stands for every other object
without a `get_params` method, such as a function. -/
inductive Val where
  | none
  | bool (b : Bool)
  | int (i : ℤ)
  | str (s : String)
  | labels (l : List ℤ)
  | graph (g : NxGraph)
  | opaque (n : ℕ)
  | obj (r : ℕ)

/-- An object: its class and its `__dict__`. -/
structure Obj where
  cls : String
  attrs : PyDict String Val

/-- The heap: the object at address `r` is entry `r`. -/
abbrev Heap := List Obj

/-- What is known of a class: the names found on the class itself (its methods),
and the `__dict__` of an object created by calling the class without arguments.
The constructors of the library assign every parameter, and only immutable
default values. -/
structure ClassInfo where
  members : List String
  init : PyDict String Val

/-- The classes; `none` if the class cannot be called without arguments. -/
abbrev Classes := String → Option ClassInfo

/-- Access to the object at an address. -/
def deref (h : Heap) (r : ℕ) : Py Obj :=
  match h[r]? with
  | some o => .ok o
  | none => .error .attributeError

/-- `hasattr(o, k)`. -/
def hasAttr (C : Classes) (o : Obj) (k : String) : Bool :=
  o.attrs.contains k || ((C o.cls).map fun c => decide (k ∈ c.members)).getD false

/-- _common.py:135-136 `_is_param_public`. -/
def isParamPublic (k : String) : Bool :=
  k.toList.head? ≠ some '_' && k.toList.getLast? ≠ some '_'

/-- `k.split("__")` on lists of characters; `cur` is the current piece, reversed. -/
def splitUU : List Char → (cur : List Char) → List (List Char)
  | [], cur => [cur.reverse]
  | [c], cur => [(c :: cur).reverse]
  | c :: d :: rest, cur =>
    if c = '_' ∧ d = '_' then cur.reverse :: splitUU rest []
    else splitUU (d :: rest) (c :: cur)

/-- `"__".join(pieces)`. -/
def joinUU : List (List Char) → List Char
  | [] => []
  | [p] => p
  | p :: q :: rest => p ++ '_' :: '_' :: joinUU (q :: rest)

/-- _common.py:138-142 `_split_param`. -/
def splitParam (k : String) : String × String :=
  let ks := splitUU k.toList []
  (String.ofList (ks.headD []), String.ofList (joinUU ks.tail))

/-- _common.py:155-156: `params[f"{k}__{_k}"] = _v` for each nested entry. -/
def addNested (k : String) (nested : List (String × Val)) (ps : PyDict String Val) :
    PyDict String Val :=
  nested.foldl (fun ps e => ps.set (k ++ "__" ++ e.1) e.2) ps

/-- _common.py:151-156: the loop over `self.__dict__.items()`; `rec` is the nested
call of `get_params`. -/
def getParamsLoop (rec : ℕ → Py (PyDict String Val)) (deep : Bool) :
    List (String × Val) → PyDict String Val → Py (PyDict String Val)
  | [], ps => .ok ps
  | (k, v) :: rest, ps =>
    if isParamPublic k then
      match v, deep with
      | .obj r, true => do
        let nested ← rec r
        getParamsLoop rec deep rest (addNested k nested.items (ps.set k v))
      | v, _ => getParamsLoop rec deep rest (ps.set k v)
    else getParamsLoop rec deep rest ps

/-- _common.py:144-157 `get_params`. Nested calls use the default `deep=True`. -/
def getParams (h : Heap) : (fuel : ℕ) → (r : ℕ) → (deep : Bool) → Py (PyDict String Val)
  | 0, _, _ => .error .diverge
  | fuel + 1, r, deep => do
    let o ← deref h r
    getParamsLoop (fun r' => getParams h fuel r' true) deep o.attrs.items PyDict.empty

/-- _common.py:163-171: the first loop of `set_params`: assigns the un-nested
parameters and collects the nested ones. -/
def setFlat (C : Classes) (r : ℕ) :
    List (String × Val) → Heap → List (String × String × Val) →
      Py (Heap × List (String × String × Val))
  | [], h, nested => .ok (h, nested)
  | (k, v) :: rest, h, nested =>
    if isParamPublic k then
      if (splitParam k).2 = "" then do
        let o ← deref h r
        if hasAttr C o (splitParam k).1 then
          setFlat C r rest (h.set r { o with attrs := o.attrs.set (splitParam k).1 v }) nested
        else setFlat C r rest h nested
      else setFlat C r rest h (nested ++ [((splitParam k).1, (splitParam k).2, v)])
    else setFlat C r rest h nested

/-- _common.py:172-175: the second loop of `set_params`; `rec` is the nested call.
`getattr` gives a bound method for a name found on the class only; neither it nor
a value that is no object has `set_params`. -/
def setNested (C : Classes) (rec : Heap → ℕ → List (String × Val) → Py Heap) (r : ℕ) :
    List (String × String × Val) → Heap → Py Heap
  | [], h => .ok h
  | (outer, inner, v) :: rest, h => do
    let o ← deref h r
    if hasAttr C o outer then
      match o.attrs.get? outer with
      | some (.obj r') => do
        let h ← rec h r' [(inner, v)]
        setNested C rec r rest h
      | _ => .error .attributeError
    else setNested C rec r rest h

/-- _common.py:159-176 `set_params`. -/
def setParams (C : Classes) : (fuel : ℕ) → Heap → (r : ℕ) → List (String × Val) → Py Heap
  | 0, _, _, _ => .error .diverge
  | fuel + 1, h, r, params => do
    let (h, nested) ← setFlat C r params h []
    setNested C (setParams C fuel) r nested h

/-- `type(obj)()`: a new object of class `cls`; the address is the end of the heap. -/
def newObj (C : Classes) (h : Heap) (cls : String) : Py (Heap × ℕ) :=
  match C cls with
  | some c => .ok (h ++ [⟨cls, c.init⟩], h.length)
  | none => .error .typeError

/-- _common.py:192-203 `clone`. -/
def clone (C : Classes) (fuel : ℕ) (h : Heap) (r : ℕ) : Py (Heap × ℕ) := do
  let params ← getParams h fuel r true
  let o ← deref h r
  let (h, new) ← newObj C h o.cls
  let h ← setParams C fuel h new params.items
  return (h, new)

end Verif

import Verif.Model.Objects
import Mathlib.Data.List.Infix

/-!
# Specification: parameters of nested estimators

A parameter is addressed by a path of attribute names, `outer__inner` in Python.
-/

set_option autoImplicit false

namespace Verif

/-- Public names neither start nor end with an underscore. -/
def IsPublic (k : String) : Prop := k.toList.head? ≠ some '_' ∧ k.toList.getLast? ≠ some '_'

/-- A public name that can be used as a parameter name: not empty and without a
double underscore. -/
def GoodName (k : String) : Prop :=
  IsPublic k ∧ k ≠ "" ∧ ¬ ['_', '_'] <:+: k.toList

instance (k : String) : Decidable (IsPublic k) := by unfold IsPublic; infer_instance

instance (k : String) : Decidable (GoodName k) := by unfold GoodName; infer_instance

/-- The object at address `r` has the public attribute `k` with value `v`. -/
def PublicAttr (h : Heap) (r : ℕ) (k : String) (v : Val) : Prop :=
  ∃ o, h[r]? = some o ∧ o.attrs.get? k = some v ∧ IsPublic k

/-- Following the public attributes `ks` from object `r` leads to object `r'`. -/
inductive Reaches (h : Heap) : ℕ → List String → ℕ → Prop
  | nil (r : ℕ) : Reaches h r [] r
  | cons {r r' r'' : ℕ} {k : String} {ks : List String} :
      PublicAttr h r k (.obj r') → Reaches h r' ks r'' → Reaches h r (k :: ks) r''

/-- `"__".join(path)`. -/
def pathName : List String → String
  | [] => ""
  | [k] => k
  | k :: k' :: ks => k ++ "__" ++ pathName (k' :: ks)

/-- The parameter addressed by the path `ks`, then `k`, has value `v`. -/
def ParamAt (h : Heap) (r : ℕ) (ks : List String) (k : String) (v : Val) : Prop :=
  ∃ r', Reaches h r ks r' ∧ PublicAttr h r' k v

/-- Attribute dictionaries have no repeated key, and public attributes have names
that can be parameter names. -/
def WellNamed (h : Heap) : Prop :=
  ∀ (r : ℕ) (o : Obj), h[r]? = some o → o.attrs.keys.Nodup ∧
    ∀ k ∈ o.attrs.keys, IsPublic k → GoodName k

/-- No object contains itself: addresses held in public attributes are valid, and
lead to objects of smaller rank. -/
def Ranked (h : Heap) (rank : ℕ → ℕ) : Prop :=
  ∀ (r : ℕ) (k : String) (r' : ℕ), PublicAttr h r k (.obj r') →
    r' < h.length ∧ rank r' < rank r

/-- The constructor of the class assigns exactly the public attributes of `o`. -/
def ParamsByInit (C : Classes) (o : Obj) (c : ClassInfo) : Prop :=
  C o.cls = some c ∧ c.init.keys.Nodup ∧
    ∀ k, IsPublic k → (k ∈ o.attrs.keys ↔ k ∈ c.init.keys)

/-- Successive calls `set_params(k=v)`, one for each entry. -/
def assignAll (C : Classes) (fuel r : ℕ) : List (String × Val) → Heap → Py Heap
  | [], h => .ok h
  | e :: rest, h => do
    let h ← setParams C fuel h r [e]
    assignAll C fuel r rest h

/-- The name addresses a parameter of a nested object: it has a double underscore. -/
def isNestedName (k : String) : Bool := decide (['_', '_'] <:+: k.toList)

/-- The value is not a nested estimator. -/
def IsPlain (v : Val) : Prop := ∀ r, v ≠ .obj r

/-- The parameter name `x` of object `r` stands for attribute `k` of object `r'`,
which holds a plain value. -/
def Addresses (h : Heap) (r : ℕ) (x : String) (r' : ℕ) (k : String) : Prop :=
  ∃ ks v, x = pathName (ks ++ [k]) ∧ Reaches h r ks r' ∧ PublicAttr h r' k v ∧ IsPlain v

end Verif

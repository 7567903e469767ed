import Verif.Spec.UserHistory

/-!
# Specification: several parameters in one call of `set_params`
-/

set_option autoImplicit false

namespace Verif

/-- The parameters of the object itself, without a double underscore in the name. -/
def ownParams (D : List (String × Val)) : List (String × Val) := D.filter fun e => !isNestedName e.1

/-- The parameters of nested objects. -/
def nestedParams (D : List (String × Val)) : List (String × Val) := D.filter fun e => isNestedName e.1

/-- The heap with these attributes of the object at `r` replaced, and nothing else changed. -/
def withParams (h : Heap) (r : ℕ) (ps : List (String × Val)) : Heap :=
  ps.foldl (fun h e => withParam h r e.1 e.2) h

/-- `set_params(**D)` on the object at `r` can be read without knowing the order of `D`: no name is
given twice; names without a double underscore are parameters of the object, with any value; the
other ones name, once these are set, plain parameters of nested objects, and give plain values; and
no two of them stand for the same attribute. -/
structure Unambiguous (h : Heap) (r : ℕ) (D : List (String × Val)) : Prop where
  once : (D.map Prod.fst).Nodup
  own : ∀ e ∈ ownParams D, ∃ v, PublicAttr h r e.1 v
  nested : ∀ e ∈ nestedParams D,
    IsPlain e.2 ∧ ∃ r' k, Addresses (withParams h r (ownParams D)) r e.1 r' k
  apart : (nestedParams D).Pairwise fun e e' => ∀ r' k,
    Addresses (withParams h r (ownParams D)) r e.1 r' k →
      ¬ Addresses (withParams h r (ownParams D)) r e'.1 r' k

end Verif

import Mathlib.Data.Multiset.AddSub
import Mathlib.Order.Defs.LinearOrder

/-!
# Specification: a priority queue is a multiset of (key, value) pairs
-/

namespace Verif

variable {K V : Type} [LE K]

/-- Operations of a priority queue. -/
inductive PQOp (K V : Type) where
  | add (k : K) (v : V)
  | pop
  | top
  | len
  | list

/-- What an operation answers. -/
inductive PQOut (K V : Type) where
  | done
  | item (x : Option (K × V))
  | num (n : ℕ)
  | items (l : List (K × V))

/-- `x` is a stored pair of maximal key. -/
def IsTop (m : Multiset (K × V)) (x : K × V) : Prop := x ∈ m ∧ ∀ y ∈ m, y.1 ≤ x.1

/-- Allowed behaviour: queue content before, operation, answer, content after. -/
inductive PQStep : Multiset (K × V) → PQOp K V → PQOut K V → Multiset (K × V) → Prop
  | add (m k v) : PQStep m (.add k v) .done ((k, v) ::ₘ m)
  | popEmpty : PQStep 0 .pop (.item none) 0
  | pop (m x) : IsTop (x ::ₘ m) x → PQStep (x ::ₘ m) .pop (.item (some x)) m
  | topEmpty : PQStep 0 .top (.item none) 0
  | top (m x) : IsTop m x → PQStep m .top (.item (some x)) m
  | len (m) : PQStep m .len (.num (Multiset.card m)) m
  | list (m) (l : List (K × V)) : (l : Multiset (K × V)) = m → PQStep m .list (.items l) m

/-- Allowed behaviour of a sequence of operations. -/
inductive PQRun : Multiset (K × V) → List (PQOp K V) → List (PQOut K V) →
    Multiset (K × V) → Prop
  | nil (m) : PQRun m [] [] m
  | cons {m op out m' ops outs m''} : PQStep m op out m' → PQRun m' ops outs m'' →
      PQRun m (op :: ops) (out :: outs) m''

end Verif

import Verif.Model.VPHier
import Mathlib.Data.Nat.Notation

/-!
# Specification: what a built vantage-point tree stores

Walks over the built data, using only its stored fields.
-/

namespace Verif

variable {T R : Type}

/-- The dataset entry stored at a position of the array. -/
def storedAt (a : VPArray T R) (pos : ℕ) : Option T :=
  match a.indices[pos]? with
  | some j => a.dataset[j]?
  | none => none

/-- The entries stored at positions `[s, e)`. -/
def storedIn (a : VPArray T R) (s e : ℕ) : List T :=
  (List.range' s (e - s)).filterMap (storedAt a)

/-- Whether a position carries the given terminal flag. -/
def flagAt (a : VPArray T R) (pos : ℕ) (b : Bool) : Prop :=
  ∃ fl, a.terminal = some fl ∧ fl[pos]? = some b

/-- The ranges of a flat tree: the root range, and below a non-terminal range
`[s, e)` with vantage point at `s` its near half `[s+1, mid)` and its far half
`[mid, e)`. -/
inductive FlatRange (a : VPArray T R) : ℕ → ℕ → Prop
  | root : FlatRange a 0 a.dataset.length
  | near {s e : ℕ} (h : FlatRange a s e) (hf : flagAt a s false) :
      FlatRange a (s + 1) ((s + e) / 2)
  | far {s e : ℕ} (h : FlatRange a s e) (hf : flagAt a s false) :
      FlatRange a ((s + e) / 2) e

/-- The entries stored below a node of a hierarchical tree. -/
def entries (a : VPArray T R) : VPNode T R → List T
  | .leaf s e => storedIn a s e
  | .node _ v near far => v :: (entries a near ++ entries a far)

/-- `SubTree t t'`: `t'` is `t` or a node below it. -/
inductive SubTree : VPNode T R → VPNode T R → Prop
  | refl (t : VPNode T R) : SubTree t t
  | near {t : VPNode T R} {r : R} {v : T} {l h : VPNode T R} (s : SubTree t (.node r v l h)) :
      SubTree t l
  | far {t : VPNode T R} {r : R} {v : T} {l h : VPNode T R} (s : SubTree t (.node r v l h)) :
      SubTree t h

end Verif

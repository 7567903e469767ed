import Verif.Model.CoverState

/-!
# Specifications for generators of charts and for covers whose `fit` raises
-/

set_option autoImplicit false

namespace Verif
variable {O T R : Type}

/-- The answers to the calls `next(g)`, in order. -/
def answersOf (g : ℕ) (rs : List CoverReply) : List (Py (Option (List ℕ))) :=
  rs.filterMap fun r =>
    match r with
    | .chart k a => if k = g then some a else none
    | _ => none

/-- The answers of a generator are the given charts in order, and `StopIteration` from
then on. -/
def Iterates (charts : List (List ℕ)) (answers : List (Py (Option (List ℕ)))) : Prop :=
  ∀ k, k < answers.length → answers[k]? = some (.ok charts[k]?)

/-- The answers of a generator are the given charts in order, each up to the order of its
ids, and `StopIteration` from then on. -/
def IteratesSame (charts : List (List ℕ)) (answers : List (Py (Option (List ℕ)))) : Prop :=
  ∀ k, k < answers.length →
    (∃ a c, answers[k]? = some (.ok (some a)) ∧ charts[k]? = some c ∧ a.Perm c) ∨
      answers[k]? = some (.ok none) ∧ charts[k]? = none

/-- The operation does not refit the object, and advances no other generator. -/
def CoverOp.Leaves (A : Searchable O T) (g : ℕ) : CoverOp O T → Prop
  | .fit _ _ => False
  | .search _ => True
  | .update f => ∀ o x, A.search (f o) x = A.search o x
  | .apply _ _ => True
  | .next k => k = g

/-- The operation only concerns the dataset `X`, and does not change parameters. -/
def CoverOp.Only (X : List T) : CoverOp O T → Prop
  | .fit _ Y => Y = X
  | .search _ => True
  | .update _ => False
  | .apply _ Y => Y = X
  | .next _ => True

/-- A new `BallCover`. -/
def BallObj.new (P : BallParams T R) : BallObj T R := ⟨P, none, none⟩

/-- A new `KNNCover`. -/
def KnnObj.new (P : KnnParams T R) : KnnObj T R := ⟨P, none, none⟩

/-- A new cubical cover. -/
def CubObj.new {m : ℕ} (P : CubParams R) : CubObj m R := ⟨P, none, none, none, none⟩

/-- A new `CubicalCover`. -/
def CubicalWorld.new {m : ℕ} (P : CubParams R) (algorithm : String) : CubicalWorld m R :=
  ⟨P, algorithm, [], none, []⟩

end Verif

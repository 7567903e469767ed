import Verif.Model.Warnings

/-!
# Specification: which calls should warn
-/

set_option autoImplicit false

namespace Verif

section
variable {R : Type} [Field R] [LinearOrder R] [FloorRing R] {m : ℕ}

/-- This cover is about to be fitted on these rows with an overlap fraction above one half. -/
def TooWide (dflt : ℕ → R) (o : CubObj m R) (X : List (Fin m → R)) : Prop :=
  X ≠ [] ∧ 1 / 2 < o.params.overlapFrac.getD (dflt m)

/-- This operation fits a cover with an overlap fraction above one half: `fit` does so, and the first
`next` of a generator. -/
inductive Asks (dflt : ℕ → R) (w : WarnWorld m R) : WarnOp m R → Prop where
  | fit (i : ℕ) (o : CubObj m R) (ρ : ℕ → ℕ) (X : List (Fin m → R)) (ho : w.objs[i]? = some o)
      (h : TooWide dflt o X) : Asks dflt w (.fit i ρ X)
  | proximity (g i : ℕ) (o : CubObj m R) (ρ : ℕ → ℕ) (X : List (Fin m → R))
      (hg : w.gens[g]? = some (i, .net (.fresh ρ X))) (ho : w.objs[i]? = some o)
      (h : TooWide dflt o X) : Asks dflt w (.next g)
  | standard (g i : ℕ) (o : CubObj m R) (ρ : ℕ → ℕ) (X : List (Fin m → R))
      (hg : w.gens[g]? = some (i, .fresh ρ X)) (ho : w.objs[i]? = some o)
      (h : TooWide dflt o X) : Asks dflt w (.next g)

open Classical in
/-- How many operations of a history fit a cover with an overlap fraction above one half. -/
noncomputable def timesAsked (dflt : ℕ → R) : WarnWorld m R → List (WarnOp m R) → ℕ
  | _, [] => 0
  | w, op :: ops => (if Asks dflt w op then 1 else 0) + timesAsked dflt (w.step dflt op).2 ops

/-- The operation leaves the filters alone. -/
def WarnOp.KeepsFilters : WarnOp m R → Prop
  | .filters _ => False
  | _ => True

/-- A process in which the library was just imported, with these filters. -/
def WarnWorld.start (a : WarnAction) : WarnWorld m R := ⟨[], [], .start a⟩

end

end Verif

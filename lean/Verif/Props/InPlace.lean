import Verif.Proof.InPlace
import Mathlib.Algebra.Order.Group.Int
import Verif.Props.Core

/-!
# C87: searches after the data was written to in place

`ChangedBy` and `MovedBy` are in `Verif.Spec.InPlace`; `AnswerBetween`-like statements are
written out.
-/

set_option autoImplicit false
set_option linter.unusedSectionVars false

namespace Verif

section
variable {T R : Type} [AddCommGroup R] [LinearOrder R] [IsOrderedAddMonoid R]

/-- **C87 (trees).** Build a tree over rows of an array while the memory is `σ` and search it
while the memory is `σ'`. The search succeeds. It returns only entries that are in the ball
now, each at most as often as it was given, and all those that are in the ball by the margin by
which distances among the rows changed. -/
theorem C87_tree (metric : T → T → R) (hd : PseudoMetric metric) (σ σ' : ℕ → T)
    (X : List (RowRef T)) (hX : X ≠ []) (kind : String) (hk : IsKind kind) (p : VPParams R)
    (hp : 1 ≤ p.leafCapacity) (ρ : ℕ → ℕ) :
    ∃ t, VPTree.build X (inMemory σ metric) kind p ρ = .ok t ∧
      ∀ (q : RowRef T) (eps : R) (inclusive : Bool), ∃ out,
        (t.later (inMemory σ' metric)).ballSearch q eps inclusive = .ok out ∧
        out.Subperm (X.filter fun x => decide (InBall (inMemory σ' metric) q eps inclusive x)) ∧
        ∀ δ, ChangedBy metric σ σ' X δ →
          (X.filter fun x => decide (InBall (inMemory σ' metric) q eps inclusive x ∧
            metric (q.read σ') (x.read σ') + δ ≤ eps)).Subperm out := by
  obtain ⟨t, h1, h2⟩ := later_ball (dt := inMemory σ metric) (d := inMemory σ' metric)
    (hd.pullback (RowRef.read σ')).symm X kind hk p hp ρ
  refine ⟨t, h1, fun q eps inc => ?_⟩
  obtain ⟨out, h3, h4⟩ := h2 hX q eps inc
  refine ⟨out, h3, (h4 (fun _ => false) ⟨fun _ hx => by simp at hx,
      fun _ _ _ _ _ _ _ _ _ => rfl, fun _ _ _ _ _ _ _ _ _ => rfl⟩).2, fun δ hδ => ?_⟩
  exact (h4 _ (keeps_later (hd.pullback (RowRef.read σ')) hδ.nearly q eps inc)).1

/-- **C87 (trees, neighbours).** Each of the `k` entries returned is, now, at most `δ` farther
than every entry left out. -/
theorem C87_tree_knn (metric : T → T → R) (hd : PseudoMetric metric) (σ σ' : ℕ → T)
    (X : List (RowRef T)) (hX : X ≠ []) (kind : String) (hk : IsKind kind) (p : VPParams R)
    (hp : 1 ≤ p.leafCapacity) (ρ : ℕ → ℕ) :
    ∃ t, VPTree.build X (inMemory σ metric) kind p ρ = .ok t ∧
      ∀ δ, ChangedBy metric σ σ' X δ → ∀ (q : RowRef T) (k : ℕ), ∃ out,
        (t.later (inMemory σ' metric)).knnSearch q k = .ok out ∧
        KnnAnswerUpTo (inMemory σ' metric) q k δ X out := by
  have hd' := hd.pullback (RowRef.read σ')
  obtain ⟨t, h1, h2⟩ := later_knn (dt := inMemory σ metric) (d := inMemory σ' metric)
    hd'.symm X kind hk p hp ρ
  exact ⟨t, h1, fun δ hδ q k => h2 hX q _ k (skips_later hd' hδ.nearly q)
    (skipsH_later hd' hδ.nearly q)⟩

/-- **C87 (BallCover).** Fit `BallCover` on rows of an array while the memory is `σ` and search
it while the memory is `σ'`. The search succeeds and returns distinct positions of rows within
the radius now, and all those within the radius by a margin of `δ`, if distances among the
rows changed by at most `δ`. -/
theorem C87_ball_partial (P : BallParams T R) (H : BallOK P) (σ σ' : ℕ → T) (ρ : ℕ → ℕ)
    (X : List (RowRef T)) (hX : X ≠ []) :
    ∃ c, ballFitIn P σ ρ X = .ok c ∧ ∀ q, ∃ out, ballSearchIn P σ' c q = .ok out ∧ out.Nodup ∧
      (∀ j ∈ out, ∃ z, X[j]? = some z ∧ P.metric (q.read σ') (z.read σ') < P.radius) ∧
      ∀ δ, ChangedBy P.metric σ σ' X δ → ∀ (j : ℕ) z, X[j]? = some z →
        P.metric (q.read σ') (z.read σ') < P.radius →
        P.metric (q.read σ') (z.read σ') + δ ≤ P.radius → j ∈ out :=
  ballIn_ok P H σ σ' ρ X hX

/-- **C87 (BallCover, rigid changes).** If the rows were written to but no distance among them
changed — a translation of the whole array, say — the search returns exactly the positions of
the rows that are within the radius now. -/
theorem C87_ball_rigid (P : BallParams T R) (H : BallOK P) (σ σ' : ℕ → T) (ρ : ℕ → ℕ)
    (X : List (RowRef T)) (hX : X ≠ [])
    (hr : ∀ x ∈ X, ∀ z ∈ X, P.metric (x.read σ') (z.read σ') = P.metric (x.read σ) (z.read σ)) :
    ∃ c, ballFitIn P σ ρ X = .ok c ∧ ∀ q, ∃ out, ballSearchIn P σ' c q = .ok out ∧ out.Nodup ∧
      ∀ j, j ∈ out ↔ ∃ z, X[j]? = some z ∧ P.metric (q.read σ') (z.read σ') < P.radius := by
  obtain ⟨c, h1, h2⟩ := ballIn_ok P H σ σ' ρ X hX
  refine ⟨c, h1, fun q => ?_⟩
  obtain ⟨out, h3, h4, h5, h6⟩ := h2 q
  refine ⟨out, h3, h4, fun j => ⟨h5 j, ?_⟩⟩
  rintro ⟨z, hz, hlt⟩
  refine h6 0 ⟨le_refl _, ?_⟩ j z hz hlt (by rw [add_zero]; exact le_of_lt hlt)
  intro x hx y hy
  rw [hr x hx y hy, sub_self, abs_zero]

/-- **C87 (BallCover, small moves).** If every row moved by at most `η`, the search returns all
the positions of rows within the radius by a margin of `2 η`. -/
theorem C87_ball_moved (P : BallParams T R) (H : BallOK P) (σ σ' : ℕ → T) (ρ : ℕ → ℕ)
    (X : List (RowRef T)) (hX : X ≠ []) (η : R) (hη : MovedBy P.metric σ σ' X η) :
    ∃ c, ballFitIn P σ ρ X = .ok c ∧ ∀ q, ∃ out, ballSearchIn P σ' c q = .ok out ∧
      ∀ (j : ℕ) z, X[j]? = some z → P.metric (q.read σ') (z.read σ') < P.radius →
        P.metric (q.read σ') (z.read σ') + (η + η) ≤ P.radius → j ∈ out := by
  obtain ⟨c, h1, h2⟩ := ballIn_ok P H σ σ' ρ X hX
  refine ⟨c, h1, fun q => ?_⟩
  obtain ⟨out, h3, _, _, h6⟩ := h2 q
  exact ⟨out, h3, h6 _ (hη.changed H.metric)⟩

/-- **C87 (KNNCover).** Fit `KNNCover` on rows of an array while the memory is `σ` and search it
while the memory is `σ'`, where distances among the rows changed by at most `δ`. The search
returns the right number of distinct positions, and each row returned is, now, at most `δ`
farther than every row left out. -/
theorem C87_knn_partial (P : KnnParams T R) (H : KnnOK P) (σ σ' : ℕ → T) (ρ : ℕ → ℕ)
    (X : List (RowRef T)) (hX : X ≠ []) :
    ∃ c, knnFitIn P σ ρ X = .ok c ∧ ∀ δ, ChangedBy P.metric σ σ' X δ → ∀ q, ∃ out,
      knnSearchIn P σ' c q = .ok out ∧ out.Nodup ∧ out.length = min P.neighbors X.length ∧
      (∀ i ∈ out, i < X.length) ∧ ∀ i ∈ out, ∀ (j : ℕ), j ∉ out → ∀ xi xj, X[i]? = some xi →
        X[j]? = some xj → P.metric (q.read σ') (xi.read σ') ≤
          P.metric (q.read σ') (xj.read σ') + δ :=
  knnIn_ok P H σ σ' ρ X hX

end

/-! ### Witnesses -/

/-- Eight rows of an array of integers. -/
def rowsAtFit : ℕ → ℤ := fun i => [0, 1, 2, 3, 30, 31, 32, 33].getD i 0

/-- The rows after `X[1] = 50`. -/
def rowsAfterWrite : ℕ → ℤ := fun i => [0, 50, 2, 3, 30, 31, 32, 33].getD i 0

/-- The rows after `X += 100`. -/
def rowsAfterShift : ℕ → ℤ := fun i => [100, 101, 102, 103, 130, 131, 132, 133].getD i 0

/-- The rows after each moved by at most 1. -/
def rowsAfterJitter : ℕ → ℤ := fun i => [1, 1, 3, 3, 29, 31, 31, 34].getD i 0

/-- A cover with small leaves. -/
def smallLeaves (kind : String) (radius : ℤ) : BallParams ℤ ℤ :=
  ⟨radius, absDist, kind, 1, none, "disabled"⟩

theorem smallLeaves_ok (kind : String) (hk : IsKind kind) (radius : ℤ) :
    BallOK (smallLeaves kind radius) := ⟨absDist_pseudo, hk, le_refl _⟩

/-- The same with a given number of neighbours. -/
def smallLeavesKnn (kind : String) (k : ℕ) : KnnParams ℤ ℤ :=
  ⟨k, absDist, kind, some 1, 0, "disabled"⟩

/-- **C87 (violation).** After a row is written to in place, a search at the contents of that
very row may not return it: the tree still holds it among the points near the old vantage
point. The distance is 0 and the radius 4. With both kinds of tree. -/
theorem C87_violation (kind : String) (hk : IsKind kind) :
    rowsAfterWrite 1 = 50 ∧
    (ballFitIn (smallLeaves kind 4) rowsAtFit (fun n => n) (arrayRows ℤ 8) >>= fun c =>
      ballSearchIn (smallLeaves kind 4) rowsAfterWrite c (.row 1)) = .ok [] ∧
    (ballFitIn (smallLeaves kind 4) rowsAfterWrite (fun n => n) (arrayRows ℤ 8) >>= fun c =>
      ballSearchIn (smallLeaves kind 4) rowsAfterWrite c (.row 1)) = .ok [1] := by
  rcases hk with rfl | rfl <;> exact ⟨rfl, by decide +kernel, by decide +kernel⟩

/-- **C87 (violation, neighbours).** And the nearest neighbour of that row is another one. -/
theorem C87_knn_violation (kind : String) (hk : IsKind kind) :
    (knnFitIn (smallLeavesKnn kind 1) rowsAtFit (fun n => n) (arrayRows ℤ 8) >>= fun c =>
      knnSearchIn (smallLeavesKnn kind 1) rowsAfterWrite c (.row 1)) = .ok [7] ∧
    (knnFitIn (smallLeavesKnn kind 1) rowsAfterWrite (fun n => n) (arrayRows ℤ 8) >>= fun c =>
      knnSearchIn (smallLeavesKnn kind 1) rowsAfterWrite c (.row 1)) = .ok [1] := by
  rcases hk with rfl | rfl <;> exact ⟨by decide +kernel, by decide +kernel⟩

/-- Non-vacuity: the shifted array has the distances it had. -/
example : ∀ x ∈ arrayRows ℤ 8, ∀ z ∈ arrayRows ℤ 8,
    absDist (x.read rowsAfterShift) (z.read rowsAfterShift) =
      absDist (x.read rowsAtFit) (z.read rowsAtFit) := by
  decide +kernel

example : ∃ c, ballFitIn (smallLeaves "flat" 3) rowsAtFit (fun n => n) (arrayRows ℤ 8) = .ok c ∧
    ∀ q, ∃ out, ballSearchIn (smallLeaves "flat" 3) rowsAfterShift c q = .ok out ∧ out.Nodup ∧
      ∀ j, j ∈ out ↔ ∃ z, (arrayRows ℤ 8)[j]? = some z ∧
        absDist (q.read rowsAfterShift) (z.read rowsAfterShift) < 3 :=
  C87_ball_rigid (smallLeaves "flat" 3) (smallLeaves_ok _ (.inl rfl) 3) _ _ _ _
    (by decide +kernel) (by decide +kernel)

/-- A search of the shifted array. -/
example : (ballFitIn (smallLeaves "flat" 3) rowsAtFit (fun n => n) (arrayRows ℤ 8) >>= fun c =>
      ballSearchIn (smallLeaves "flat" 3) rowsAfterShift c (.value 134)) = .ok [6, 7] := by
  decide +kernel

/-- Non-vacuity: every row moved by at most 1. -/
example : MovedBy absDist rowsAtFit rowsAfterJitter (arrayRows ℤ 8) 1 :=
  ⟨by decide, by decide +kernel⟩

example : ChangedBy absDist rowsAtFit rowsAfterJitter (arrayRows ℤ 8) 2 :=
  MovedBy.changed (η := 1) absDist_pseudo ⟨by decide, by decide +kernel⟩

example : ∃ c, knnFitIn (smallLeavesKnn "hierarchical" 2) rowsAtFit (fun n => n) (arrayRows ℤ 8) = .ok c ∧
    ∀ q, ∃ out, knnSearchIn (smallLeavesKnn "hierarchical" 2) rowsAfterJitter c q = .ok out ∧
      out.length = 2 := by
  obtain ⟨c, h1, h2⟩ := C87_knn_partial (smallLeavesKnn "hierarchical" 2)
    ⟨absDist_pseudo, .inr rfl, by decide⟩ rowsAtFit rowsAfterJitter (fun n => n) (arrayRows ℤ 8)
    (by decide +kernel)
  refine ⟨c, h1, fun q => ?_⟩
  obtain ⟨out, h3, _, h4, _⟩ := h2 2
    (MovedBy.changed (η := 1) absDist_pseudo ⟨by decide, by decide +kernel⟩) q
  exact ⟨out, h3, h4⟩

end Verif

import Verif.Spec.MetricsFloat

/-!
# Exact sums along orders of addition
-/

set_option autoImplicit false

namespace Verif

variable {n : ℕ}

/-- The exact sum along a tree. -/
noncomputable def SumTree.exact (f : Fin n → ℝ) : SumTree n → ℝ
  | .zero => 0
  | .leaf i => f i
  | .node l r => l.exact f + r.exact f

theorem SumTree.exact_eq (f : Fin n → ℝ) (t : SumTree n) :
    t.exact f = (t.leaves.map f).sum := by
  induction t with
  | zero => simp [SumTree.exact, SumTree.leaves]
  | leaf i => simp [SumTree.exact, SumTree.leaves]
  | node l r hl hr => simp [SumTree.exact, SumTree.leaves, hl, hr]

theorem SumTree.exact_sum (f : Fin n → ℝ) {t : SumTree n} (ht : t.AddsAll) :
    t.exact f = ∑ i, f i := by
  rw [t.exact_eq, (ht.map f).sum_eq, ← List.ofFn_eq_map, List.sum_ofFn]

theorem SumTree.exact_nonneg {f : Fin n → ℝ} (hf : ∀ i, 0 ≤ f i) (t : SumTree n) :
    0 ≤ t.exact f := by
  induction t with
  | zero => exact le_rfl
  | leaf i => exact hf i
  | node l r hl hr => exact add_nonneg hl hr

theorem SumTree.eval_real {n : ℕ} (f : Fin n → ℝ) {t : SumTree n} (ht : t.AddsAll) :
    t.eval f = ∑ i, f i := by
  rw [← SumTree.exact_sum f ht]
  clear ht
  induction t with
  | zero => rfl
  | leaf i => rfl
  | node l r hl hr => rw [SumTree.eval, hl, hr]; rfl

theorem SumTree.loop_addsAll (n : ℕ) : (SumTree.loop n).AddsAll := by
  have h : ∀ (l : List (Fin n)) (t : SumTree n),
      (l.foldl (fun t i => SumTree.node t (SumTree.leaf i)) t).leaves = t.leaves ++ l := by
    intro l
    induction l with
    | nil => intro t; simp
    | cons a l ih => intro t; rw [List.foldl_cons, ih]; simp [SumTree.leaves]
  unfold AddsAll loop
  rw [h]
  simp [SumTree.leaves]

theorem SumTree.loop_depth (n : ℕ) : (SumTree.loop n).depth = n := by
  have h : ∀ (l : List (Fin n)) (t : SumTree n),
      (l.foldl (fun t i => SumTree.node t (SumTree.leaf i)) t).depth = t.depth + l.length := by
    intro l
    induction l with
    | nil => intro t; simp
    | cons a l ih =>
      intro t
      rw [List.foldl_cons, ih]
      simp [SumTree.depth]
      omega
  unfold loop
  rw [h]
  simp [SumTree.depth]

end Verif

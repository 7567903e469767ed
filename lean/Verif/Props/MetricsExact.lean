import Verif.Proof.SumTree
import Verif.Props.Metrics

/-!
# C85: with exact operations the floating-point model is the exact one
-/

set_option autoImplicit false

namespace Verif

/-- The library routines on real numbers, adding up in the order `S`. -/
noncomputable def realLibm (S : ∀ n, SumTree n) : Libm ℝ where
  abs := fun x => |x|
  sqrt := Real.sqrt
  pow := fun x p => x ^ p
  isInf := fun _ => false
  one := 1
  two := 2
  sum := fun {n} v => (S n).eval v
  nrm2 := fun {n} v => Real.sqrt ((S n).eval (fun i => v i * v i))
  dot := fun {n} x y => (S n).eval (fun i => x i * y i)

open Classical in
/-- **C85 (exact arithmetic).** On real numbers with exact operations, in any order of addition,
the distances are those of `Verif.Model.Metrics`, about which C47–C49 speak. -/
theorem C85_exact {n : ℕ} (S : ∀ n, SumTree n) (hA : (S n).AddsAll) (x y : Fin n → ℝ) :
    euclidean x y = .ok (floatEuclidean (realLibm S) x y) ∧
    manhattan x y = .ok (floatManhattan (realLibm S) x y) ∧
    chebyshev x y = .ok (floatChebyshev (realLibm S) x y) ∧
    (∀ p, 0 ≤ p → minkowski (.real p) x y = .ok (floatMinkowski (realLibm S) p x y)) ∧
    cosine x y = floatCosine (realLibm S) x y := by
  have hE : npNorm2 (x - y) = floatEuclidean (realLibm S) x y := by
    show _ = Real.sqrt ((S n).eval _)
    rw [SumTree.eval_real _ hA]
    rfl
  have hM : npNorm (.real 1) (x - y) = floatManhattan (realLibm S) x y := by
    rw [npNorm_pos one_pos]
    show _ = (S n).eval _
    rw [SumTree.eval_real _ hA]
    simp only [minkowskiFormula, Real.rpow_one, div_one]
    rfl
  refine ⟨congrArg _ hE, congrArg _ hM, ?_, ?_, ?_⟩
  · show Except.ok _ = Except.ok _
    congr 1
    show chebyshevDist x y = _
    refine C47_max_unique x y _ _ (chebyshevDist_isMaxDiff x y) ?_
    unfold floatChebyshev
    split
    · rename_i hl
      have hn : n = 0 := by simpa using congrArg List.length hl
      subst hn
      exact ⟨fun i => i.elim0, Or.inl ⟨rfl, rfl⟩⟩
    · rename_i a l hl
      have hfold : ∀ (l : List ℝ) (a : ℝ),
          l.foldl (fun ret v => if ret < v then v else ret) a = l.foldl max a := by
        intro l
        induction l with
        | nil => intro a; rfl
        | cons b l ih =>
          intro a
          rw [List.foldl_cons, List.foldl_cons, ← ih]
          congr 1
          rcases lt_or_ge a b with h | h
          · rw [if_pos h, max_eq_right h.le]
          · rw [if_neg (not_lt.mpr h), max_eq_left h]
      have hf : l.foldl (fun ret v => if ret < v then v else ret) a
          = l.foldl max a := hfold l a
      refine ⟨?_, Or.inr ?_⟩
      · intro i
        have hm : |x i - y i| ∈ a :: l := by
          rw [← hl]
          exact (List.mem_ofFn' _ _).mpr ⟨i, rfl⟩
        rw [hf]
        have hle : ∀ (l : List ℝ) (a v : ℝ), v ∈ a :: l → v ≤ l.foldl max a := by
          intro l
          induction l with
          | nil => intro a v hv; simpa using (List.mem_singleton.mp hv).le
          | cons b l ih =>
            intro a v hv
            rw [List.foldl_cons]
            rcases List.mem_cons.mp hv with rfl | hv
            · exact (le_max_left _ _).trans (ih _ _ (List.mem_cons_self ..))
            · rcases List.mem_cons.mp hv with rfl | hv
              · exact (le_max_right _ _).trans (ih _ _ (List.mem_cons_self ..))
              · exact ih _ _ (List.mem_cons_of_mem _ hv)
        exact hle l a _ hm
      · have hm : l.foldl max a ∈ a :: l := by
          rcases foldl_max_mem l a with h | h
          · rw [h]; exact List.mem_cons_self ..
          · exact List.mem_cons_of_mem _ h
        rw [← hf, ← hl] at hm
        obtain ⟨i, hi⟩ := (List.mem_ofFn' _ _).mp hm
        exact ⟨i, hi.symm⟩
  · intro p hp
    show minkowski (.real p) x y = .ok (if p = 1 then _ else if p = 2 then _ else
      if false = true then _ else _)
    unfold minkowski
    simp only
    split_ifs with h1 h2 hf
    · exact congrArg _ hM
    · exact congrArg _ hE
    · exact hf.elim
    · show Except.ok _ = Except.ok _
      congr 1
      unfold floatNormP npNorm
      simp only
      split_ifs with h3 h4
      · show _ = (S n).eval _
        rw [SumTree.eval_real _ hA]
        simp only [Pi.sub_apply]
        rw [Finset.sum_ite]
        simp [realLibm]
      · exact absurd h4.1 (not_lt.mpr hp)
      · show _ = ((S n).eval _ : ℝ) ^ _
        rw [SumTree.eval_real _ hA]
        rfl
  · unfold cosine floatCosine
    simp only
    have h1 : ∀ v : Fin n → ℝ, (realLibm S).nrm2 v = npNorm2 v := by
      intro v
      show Real.sqrt ((S n).eval _) = _
      rw [SumTree.eval_real _ hA]
      rfl
    have h2 : (realLibm S).dot x y = npDot x y := by
      show (S n).eval _ = _
      rw [SumTree.eval_real _ hA]
      rfl
    rw [h1, h1, h2]
    rfl

/-- With the loop of the source the hypothesis holds, in every dimension. -/
example (n : ℕ) (x y : Fin n → ℝ) :
    euclidean x y = .ok (floatEuclidean (realLibm SumTree.loop) x y) :=
  (C85_exact SumTree.loop (SumTree.loop_addsAll n) x y).1

end Verif

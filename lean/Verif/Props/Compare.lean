import Verif.Proof.Compare
import Mathlib.Data.Int.Order.Basic

/-!
# C101: the comparisons made by quickselect and by the construction of a tree

A comparison asks whether one number is less than another. Of the order only what holds of
floating-point numbers, NaN included, is assumed. The comparisons of the numbers in `data` are
counted; `trace lessThan` lists them, in order, with both numbers.
-/

set_option autoImplicit false
set_option linter.unusedSectionVars false

namespace Verif

variable {T R β γ : Type} [LT R] [DecidableLT R]

open Calls

/-- **C101 (the model).** The computations that ask for their comparisons return, when the answers
are those of the order, what the other model of quickselect and of the trees returns. -/
theorem C101_result [Zero R] [LE R] [DecidableLE R] :
    (∀ (s : QState R β γ) (start end_ k : ℕ),
      (quickselectQ s start end_ k).answer (fun x y => decide (x < y)) =
        quickselect s start end_ k) ∧
    (∀ (d : T → T → R) ρ p X,
      (flatBuildQ d ρ p X).answer (fun x y => decide (x < y)) = flatBuild d ρ p X) ∧
    ∀ (d : T → T → R) ρ p X,
      (hierBuildQ d ρ p X).answer (fun x y => decide (x < y)) = hierBuild d ρ p X :=
  ⟨answer_quickselectQ, answer_flatBuildQ, answer_hierBuildQ⟩

/-- **C101 (selection).** `quickselect(data, start, end, k)` with `start <= k < end <= len` makes at
most `m (m - 1)` comparisons, for `m = end - start`. -/
theorem C101_select [StrictLT R] (s : QState R β γ) (start end_ k : ℕ)
    (hk : start ≤ k ∧ k < end_) (hlen : end_ ≤ s.data.length)
    (hx1 : ∀ l, s.extra1 = some l → l.length = s.data.length)
    (hx2 : ∀ l, s.extra2 = some l → l.length = s.data.length) :
    ((quickselectQ s start end_ k).trace (fun x y => decide (x < y))).length ≤
      (end_ - start) * (end_ - start - 1) := by
  rw [quickselectQ, if_neg (by omega)]
  exact (trace_quickselectLoopQ_bound k _ start end_ (-1) s hk.1 hk.2
    ⟨hlen, fun l hl => by rw [hx1 l hl]; exact hlen, fun l hl => by rw [hx2 l hl]; exact hlen⟩
    (by omega)).1

/-- **C101 (selection among equal entries).** If no entry of the range is less than another, then
`quickselect` goes through the positions one by one up to `k`, and each time compares all that is
left: it makes `(m - 1) + (m - 2) + ...` comparisons, with `k - start + 1` summands. -/
theorem C101_equal [StrictLT R] (s : QState R β γ) (start end_ k : ℕ)
    (hk : start ≤ k ∧ k < end_) (hlen : end_ ≤ s.data.length)
    (hx1 : ∀ l, s.extra1 = some l → l.length = s.data.length)
    (hx2 : ∀ l, s.extra2 = some l → l.length = s.data.length)
    (heq : ∀ i j x y, start ≤ i → i < end_ → start ≤ j → j < end_ → s.data[i]? = some x →
      s.data[j]? = some y → ¬ x < y) :
    ((quickselectQ s start end_ k).trace (fun x y => decide (x < y))).length =
      ((List.range (k - start + 1)).map fun i => end_ - start - 1 - i).sum := by
  rw [quickselectQ, if_neg (by omega)]
  exact trace_quickselectLoopQ_equal k (k - start) _ start end_ (-1) s (by omega) hk.2
    ⟨hlen, fun l hl => by rw [hx1 l hl]; exact hlen, fun l hl => by rw [hx2 l hl]; exact hlen⟩
    (by omega) (by omega) heq

variable [Zero R] [LE R] [DecidableLE R]

/-- **C101 (construction).** Building a tree on `n` entries makes at most `4 n²` comparisons. -/
theorem C101_build (d : T → T → R) (ρ : ℕ → ℕ) (p : VPParams R) (hcap : 1 ≤ p.leafCapacity)
    (X : List T) :
    ((flatBuildQ d ρ p X).trace (fun x y => decide (x < y))).length ≤ 4 * X.length ^ 2 ∧
    ((hierBuildQ d ρ p X).trace (fun x y => decide (x < y))).length ≤ 4 * X.length ^ 2 :=
  ⟨trace_flatBuildQ_le d ρ p hcap X, trace_hierBuildQ_le d ρ p hcap X⟩

/-- **C101 (construction on equal entries).** If all distances between the entries are the same, as
for `n` copies of a row, then building a tree with more entries than the capacity of a leaf makes at
least `n (n - 2) / 4` comparisons, although C88 bounds the calls of the distance function by
`n (⌈log₂ n⌉ + 1)`. -/
theorem C101_build_equal [StrictLT R] (d : T → T → R) (ρ : ℕ → ℕ) (p : VPParams R) (X : List T)
    (hcap : p.leafCapacity < X.length) (c : R) (hd : ∀ x ∈ X, ∀ y ∈ X, d x y = c) :
    X.length * (X.length - 2) ≤
      4 * ((flatBuildQ d ρ p X).trace (fun x y => decide (x < y))).length ∧
    X.length * (X.length - 2) ≤
      4 * ((hierBuildQ d ρ p X).trace (fun x y => decide (x < y))).length :=
  ⟨trace_flatBuildQ_ge d ρ p c X hd, trace_hierBuildQ_ge d ρ p c X hd hcap⟩

section examples

/-- Non-vacuity: six entries, of which the third in order is wanted. -/
def compareExample : QState ℤ ℕ Bool := ⟨[9, 3, 1, 3, 2, 0], some [10, 11, 12, 13, 14, 15], none⟩

example : ((quickselectQ compareExample 0 6 2).trace (fun x y => decide (x < y))).length ≤ 30 :=
  C101_select compareExample 0 6 2 (by decide) (by decide) (by intro l h; cases h; rfl)
    (by intro l h; cases h)

/-- The first comparisons it makes. -/
example : ((quickselectQ compareExample 0 6 2).trace (fun x y => decide (x < y))).take 5 =
    [(3, 1), (9, 1), (3, 1), (2, 1), (0, 1)] := by decide +kernel

/-- The bound `m (m - 1)` is reached up to a constant: four equal entries, the last one wanted. -/
example : ((quickselectQ (R := ℤ) (β := ℕ) (γ := Bool) ⟨[7, 7, 7, 7], none, none⟩ 0 4 3).trace
    (fun x y => decide (x < y))).length = 6 :=
  C101_equal _ 0 4 3 (by decide) (by decide) (by intro l h; cases h) (by intro l h; cases h)
    (by
      intro i j x y _ _ _ _ hx hy
      have h1 : x ∈ [(7 : ℤ), 7, 7, 7] := List.mem_of_getElem? hx
      have h2 : y ∈ [(7 : ℤ), 7, 7, 7] := List.mem_of_getElem? hy
      simp at h1 h2
      omega)

/-- Non-vacuity: a hundred copies of one point, with leaves of one entry. -/
example : 100 * 98 ≤ 4 * ((flatBuildQ (fun x y : ℤ => |x - y|) id ⟨1, 0, "none"⟩
    (List.replicate 100 5)).trace (fun x y => decide (x < y))).length := by
  have := (C101_build_equal (fun x y : ℤ => |x - y|) id ⟨1, 0, "none"⟩ (List.replicate 100 5)
    (by simp) 0 (by
      intro x hx y hy
      rw [List.eq_of_mem_replicate hx, List.eq_of_mem_replicate hy]
      simp)).1
  simpa using this

example : ((hierBuildQ (fun x y : ℤ => |x - y|) id ⟨1, 0, "none"⟩ [4, 1, 8, 2, 2]).trace
    (fun x y => decide (x < y))).length ≤ 4 * 5 ^ 2 :=
  (C101_build _ _ _ (by decide) _).2

end examples

end Verif

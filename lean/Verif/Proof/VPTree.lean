import Verif.Proof.VPHier
import Verif.Model.VPTree
import Verif.Spec.VPTree
import Mathlib.Data.List.Sort

set_option linter.unusedSectionVars false

namespace Verif

variable {T R : Type}

open VPArray

theorem storedAt_eq_pt (a : VPArray T R) (i : ℕ) : storedAt a i = a.pt i := by
  unfold storedAt VPArray.pt
  cases a.indices[i]? <;> rfl

theorem storedIn_eq_pts (a : VPArray T R) (s e : ℕ) (he : e ≤ a.indices.length) :
    storedIn a s e = a.pts s e := by
  unfold storedIn VPArray.pts
  obtain ⟨n, hn⟩ : ∃ n, e - s = n := ⟨_, rfl⟩
  rw [hn]
  induction n generalizing s with
  | zero =>
    have : slice a.indices s e = [] := by
      unfold slice; apply List.drop_eq_nil_of_le; simp; omega
    simp [this]
  | succ n ih =>
    have hs : s < a.indices.length := by omega
    have hcons : slice a.indices s e = a.indices[s] :: slice a.indices (s + 1) e := by
      apply List.ext_getElem?
      intro i
      rw [getElem?_slice]
      cases i with
      | zero => simp [hs]; omega
      | succ i =>
        rw [List.getElem?_cons_succ, getElem?_slice]
        rw [show s + (i + 1) = s + 1 + i by omega]
    rw [hcons, List.range'_succ, List.filterMap_cons, List.filterMap_cons, ih (s + 1) (by omega)]
    simp [storedAt, hs]

theorem entries_eq_pts (a : VPArray T R) (h : a.WF) : ∀ {t : VPNode T R} {s : ℕ},
    t.Within s a.dataset.length → entries a t = t.pts a
  | .leaf s e, _, ht => storedIn_eq_pts a s e (by rw [h.idx_len]; exact ht.2)
  | .node r v l rt, _, ht => by
    simp only [entries, VPNode.pts]
    rw [entries_eq_pts a h ht.1, entries_eq_pts a h ht.2]

theorem flagAt_iff (a : VPArray T R) (i : ℕ) (b : Bool) : flagAt a i b ↔ a.term i = some b := by
  unfold flagAt VPArray.term
  cases a.terminal <;> simp

theorem FlatRange.tree [LT R] {p : VPParams R} {d : T → T → R} {a : VPArray T R}
    (t : FlatTree p d a 0 a.dataset.length) {s e : ℕ} (h : FlatRange a s e) :
    FlatTree p d a s e := by
  induction h with
  | root => exact t
  | near _ hf ih =>
    rw [flagAt_iff] at hf
    cases ih with
    | leaf _ _ _ ht _ => rw [ht] at hf; cases hf
    | node _ _ _ _ _ _ _ _ _ _ left right => exact left
  | far _ hf ih =>
    rw [flagAt_iff] at hf
    cases ih with
    | leaf _ _ _ ht _ => rw [ht] at hf; cases hf
    | node _ _ _ _ _ _ _ _ _ _ left right => exact right

theorem SubTree.within {t t' : VPNode T R} (h : SubTree t t') {s e : ℕ} (ht : t.Within s e) :
    t'.Within s e := by
  induction h with
  | refl => exact ht
  | near _ ih => exact ih.1
  | far _ ih => exact ih.2

theorem SubTree.good [LT R] {d : T → T → R} {a : VPArray T R} {t t' : VPNode T R} (h : SubTree t t')
    (ht : t.Good d a) : t'.Good d a := by
  induction h with
  | refl => exact ht
  | near _ ih => exact ih.2.2.2.1
  | far _ ih => exact ih.2.2.2.2

section
variable [LinearOrder R]

theorem sorted_append {l1 l2 : List R} (h : ∀ x ∈ l1, ∀ y ∈ l2, x ≤ y) :
    (l1 ++ l2).insertionSort (· ≤ ·) =
      l1.insertionSort (· ≤ ·) ++ l2.insertionSort (· ≤ ·) := by
  have hp : (l1.insertionSort (· ≤ ·) ++ l2.insertionSort (· ≤ ·)).Perm (l1 ++ l2) :=
    (List.perm_insertionSort _ _).append (List.perm_insertionSort _ _)
  have hs : (l1.insertionSort (· ≤ ·) ++ l2.insertionSort (· ≤ ·)).Pairwise (· ≤ ·) := by
    rw [List.pairwise_append]
    refine ⟨List.pairwise_insertionSort _ _, List.pairwise_insertionSort _ _, ?_⟩
    intro x hx y hy
    exact h x ((List.mem_insertionSort _).mp hx) y ((List.mem_insertionSort _).mp hy)
  exact List.Perm.eq_of_pairwise (fun a b _ _ h1 h2 => le_antisymm h1 h2)
    (List.pairwise_insertionSort _ _) hs ((List.perm_insertionSort _ _).trans hp.symm)

/-- The sorted distances of a k-nearest-neighbour answer are determined. -/
theorem IsKnnAnswer.distances {d : T → T → R} {q : T} {k : ℕ} {X out : List T}
    (h : IsKnnAnswer d q k X out) :
    (out.map (d q)).insertionSort (· ≤ ·) =
      ((X.map (d q)).insertionSort (· ≤ ·)).take k := by
  obtain ⟨hl, left, hp, hle⟩ := h
  have h1 : (X.map (d q)).insertionSort (· ≤ ·) =
      ((out ++ left).map (d q)).insertionSort (· ≤ ·) := by
    apply List.Perm.eq_of_pairwise (fun a b _ _ h1 h2 => le_antisymm h1 h2)
      (List.pairwise_insertionSort _ _) (List.pairwise_insertionSort _ _)
    exact (List.perm_insertionSort _ _).trans
      ((hp.symm.map _).trans (List.perm_insertionSort _ _).symm)
  rw [h1, List.map_append, sorted_append]
  · have hlen := hp.length_eq
    rw [List.length_append] at hlen
    by_cases hk : k ≤ X.length
    · rw [List.take_append_of_le_length (by simp; omega), List.take_of_length_le (by simp; omega)]
    · have : left = [] := List.eq_nil_of_length_eq_zero (by omega)
      subst this
      rw [List.take_of_length_le (by simp; omega)]
      simp
  · intro x hx y hy
    rw [List.mem_map] at hx hy
    obtain ⟨x, hx, rfl⟩ := hx
    obtain ⟨y, hy, rfl⟩ := hy
    exact hle x hx y hy

end

end Verif

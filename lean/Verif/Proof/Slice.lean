import Verif.Py
import Verif.Proof.Permute
import Mathlib.Data.List.Sort

namespace Verif

variable {R : Type}

/-- A list is the part before `s`, the slice `[s:e]`, and the part from `e`. -/
theorem slice_split {α : Type} (l : List α) {s e : ℕ} (h : s ≤ e) :
    l = l.take s ++ slice l s e ++ l.drop e := by
  unfold slice
  have h1 : (l.take e).take s = l.take s := by rw [List.take_take]; congr 1; omega
  rw [← h1, List.take_append_drop, List.take_append_drop]

/-- Rearranging inside `[s, e)` permutes the slice `[s:e]`. -/
theorem Rearranged.slice_perm {α : Type} {π : Equiv.Perm ℕ} {l l' : List α} {s e : ℕ}
    (h : Rearranged π l l') (hπ : MovesOnly π s e) (hse : s ≤ e) (he : e ≤ l.length) :
    (slice l' s e).Perm (slice l s e) := by
  have hp := h.perm (hπ.mono (Nat.zero_le _) he)
  have h1 : l'.take s = l.take s := by
    apply List.ext_getElem?
    intro m
    by_cases hm : m < s
    · rw [List.getElem?_take_of_lt hm, List.getElem?_take_of_lt hm, h.2, hπ m (by omega)]
    · rw [List.getElem?_eq_none (by simp; omega), List.getElem?_eq_none (by simp; omega)]
  have h2 : l'.drop e = l.drop e := by
    apply List.ext_getElem?
    intro m
    rw [List.getElem?_drop, List.getElem?_drop, h.2, hπ _ (by omega)]
  rw [slice_split l' hse, slice_split l hse, h1, h2] at hp
  exact (List.perm_append_left_iff _).mp ((List.perm_append_right_iff _).mp hp)

theorem getElem?_slice {α : Type} (l : List α) (s e m : ℕ) :
    (slice l s e)[m]? = if s + m < e then l[s + m]? else none := by
  unfold slice
  rw [List.getElem?_drop]
  split
  · rw [List.getElem?_take_of_lt (by assumption)]
  · rw [List.getElem?_eq_none]; simp; omega

variable [LinearOrder R]

/-- An element that bounds everything before it from above and everything after
it from below is where sorting would put it. -/
theorem sorted_get_of_split (l : List R) (i : ℕ) (v : R) (hi : l[i]? = some v)
    (h1 : ∀ m x, m < i → l[m]? = some x → x ≤ v)
    (h2 : ∀ m x, i < m → l[m]? = some x → v ≤ x) :
    (l.insertionSort (· ≤ ·))[i]? = some v := by
  have hlt : i < l.length := by
    by_contra hc
    rw [List.getElem?_eq_none (by omega)] at hi; cases hi
  have hl : l = l.take i ++ v :: l.drop (i + 1) := by
    have : l[i] = v := by rw [List.getElem?_eq_getElem hlt] at hi; exact Option.some.inj hi
    rw [← this, List.cons_getElem_drop_succ, List.take_append_drop]
  set A := (l.take i).insertionSort (· ≤ ·)
  set B := (l.drop (i + 1)).insertionSort (· ≤ ·)
  have hA : ∀ x ∈ A, x ≤ v := by
    intro x hx
    have := (List.perm_insertionSort (· ≤ ·) _).mem_iff.mp hx
    obtain ⟨m, hm⟩ := List.getElem?_of_mem this
    have hmi : m < i := by
      by_contra hc
      rw [List.getElem?_eq_none (by simp; omega)] at hm; cases hm
    rw [List.getElem?_take_of_lt hmi] at hm
    exact h1 m x hmi hm
  have hB : ∀ x ∈ B, v ≤ x := by
    intro x hx
    have := (List.perm_insertionSort (· ≤ ·) _).mem_iff.mp hx
    obtain ⟨m, hm⟩ := List.getElem?_of_mem this
    rw [List.getElem?_drop] at hm
    exact h2 _ x (by omega) hm
  have hs : l.insertionSort (· ≤ ·) = A ++ v :: B := by
    apply List.Perm.eq_of_pairwise' (r := (· ≤ ·))
    · exact List.pairwise_insertionSort _ _
    · rw [List.pairwise_append]
      refine ⟨List.pairwise_insertionSort _ _, ?_, ?_⟩
      · rw [List.pairwise_cons]
        exact ⟨hB, List.pairwise_insertionSort _ _⟩
      · intro a ha b hb
        rcases List.mem_cons.mp hb with rfl | hb
        · exact hA a ha
        · exact (hA a ha).trans (hB b hb)
    · refine (List.perm_insertionSort _ _).trans ?_
      conv_lhs => rw [hl]
      exact (List.perm_insertionSort _ _).symm.append
        ((List.perm_insertionSort _ _).symm.cons v)
  rw [hs, List.getElem?_append_right (by simp [A])]
  simp [A, Nat.min_eq_left hlt.le]

end Verif

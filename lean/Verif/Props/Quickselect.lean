import Verif.Proof.Quickselect
import Verif.Proof.Slice

/-!
# C01, C02: quickselect
-/

namespace Verif

variable {R β γ : Type}

variable [LinearOrder R]

/-- **C01.** `quickselect(data, start, end, k)` with `start <= k < end <= len`
terminates without error; afterwards nothing in `[start, k)` exceeds `data[k]`,
nothing in `[k, end)` is below it, and `data[k]` is the element at position
`k - start` of the sorted range. -/
theorem C01_quickselect_order_statistic (s : QState R β γ) (start end_ k : ℕ)
    (hk : start ≤ k ∧ k < end_)
    (hlen : end_ ≤ s.data.length)
    (hx1 : ∀ l, s.extra1 = some l → l.length = s.data.length)
    (hx2 : ∀ l, s.extra2 = some l → l.length = s.data.length) :
    ∃ s' v, quickselect s start end_ k = .ok s' ∧ s'.data[k]? = some v ∧
      (∀ m x, start ≤ m → m < k → s'.data[m]? = some x → x ≤ v) ∧
      (∀ m x, k ≤ m → m < end_ → s'.data[m]? = some x → v ≤ x) ∧
      ((slice s.data start end_).insertionSort (· ≤ ·))[k - start]? = some v := by
  obtain ⟨s', π, e, mv, mo, sel⟩ := quickselect_ok s start end_ k
    ⟨hlen, fun l hl => by rw [hx1 l hl]; exact hlen, fun l hl => by rw [hx2 l hl]; exact hlen⟩
  have sel := sel hk.1 hk.2
  have hlt : k < s'.data.length := by rw [mv.1.1]; omega
  have hv : s'.data[k]? = some s'.data[k] := List.getElem?_eq_getElem hlt
  refine ⟨s', _, e, hv, fun m x a b c => not_lt.mp (sel.1 m x _ a b c hv),
    fun m x a b c => not_lt.mp (sel.2 m x _ a b c hv), ?_⟩
  have hp : (slice s'.data start end_).Perm (slice s.data start end_) :=
    mv.1.slice_perm mo (by omega) hlen
  have hsort : (slice s.data start end_).insertionSort (· ≤ ·) =
      (slice s'.data start end_).insertionSort (· ≤ ·) := by
    apply List.Perm.eq_of_pairwise' (r := (· ≤ ·))
    · exact List.pairwise_insertionSort _ _
    · exact List.pairwise_insertionSort _ _
    · exact ((List.perm_insertionSort _ _).trans hp.symm).trans
        (List.perm_insertionSort _ _).symm
  rw [hsort]
  apply sorted_get_of_split
  · rw [getElem?_slice, if_pos (by omega), show start + (k - start) = k by omega, hv]
  · intro m x hm hx
    rw [getElem?_slice, if_pos (by omega)] at hx
    exact not_lt.mp (sel.1 _ x _ (by omega) (by omega) hx hv)
  · intro m x hm hx
    rw [getElem?_slice] at hx
    split at hx
    · exact not_lt.mp (sel.2 _ x _ (by omega) (by omega) hx hv)
    · cases hx

/-- Non-vacuity: a range with duplicates, selected in the middle. -/
example : ∃ s' v, quickselect (R := ℤ) (β := ℕ) (γ := Bool)
      ⟨[9, 3, 1, 3, 2, 0], some [10, 11, 12, 13, 14, 15], none⟩ 1 5 3 = .ok s' ∧
      s'.data[3]? = some v ∧ v = 3 := by
  obtain ⟨s', v, h1, h2, _, _, h5⟩ := C01_quickselect_order_statistic (R := ℤ) (β := ℕ) (γ := Bool)
    ⟨[9, 3, 1, 3, 2, 0], some [10, 11, 12, 13, 14, 15], none⟩ 1 5 3 (by decide) (by decide)
    (by intro l hl; cases hl; rfl) (by intro l hl; cases hl)
  refine ⟨s', v, h1, h2, ?_⟩
  have : ((slice [(9 : ℤ), 3, 1, 3, 2, 0] 1 5).insertionSort (· ≤ ·))[3 - 1]? = some 3 := by
    decide
  rw [this] at h5
  exact (Option.some.inj h5).symm

/-- **C02.** `quickselect` moves whole rows: some permutation `π` of the
positions, moving nothing outside `[start, end)`, rearranges `data` and both
companion arrays alike, so each result is a permutation of its original; and it
is a no-op when `k` is outside `[start, end)`. -/
theorem C02_quickselect_moves_rows (s : QState R β γ) (start end_ k : ℕ)
    (hlen : end_ ≤ s.data.length)
    (hx1 : ∀ l, s.extra1 = some l → l.length = s.data.length)
    (hx2 : ∀ l, s.extra2 = some l → l.length = s.data.length) :
    ∃ s' π, quickselect s start end_ k = .ok s' ∧ MovesOnly π start end_ ∧
      Rearranged π s.data s'.data ∧ RearrangedOpt π s.extra1 s'.extra1 ∧
      RearrangedOpt π s.extra2 s'.extra2 ∧ s'.data.Perm s.data ∧
      (k < start ∨ end_ ≤ k → s' = s) := by
  obtain ⟨s', π, e, mv, mo, -⟩ := quickselect_ok s start end_ k
    ⟨hlen, fun l hl => by rw [hx1 l hl]; exact hlen, fun l hl => by rw [hx2 l hl]; exact hlen⟩
  refine ⟨s', π, e, mo, mv.1, mv.2.1, mv.2.2,
    mv.1.perm (mo.mono (Nat.zero_le _) hlen), fun h => ?_⟩
  rw [quickselect, if_pos h] at e
  exact (Except.ok.inj e).symm

/-- Non-vacuity: with companions present, the rows `(distance, index)` of the
result are a rearrangement of the original rows. -/
example : ∃ s' π, quickselect (R := ℤ) (β := ℕ) (γ := Bool)
      ⟨[9, 3, 1, 3], some [10, 11, 12, 13], some [true, false, true, true]⟩ 0 4 2 = .ok s' ∧
      MovesOnly π 0 4 ∧ Rearranged π [9, 3, 1, 3] s'.data ∧ s'.data.Perm [9, 3, 1, 3] := by
  obtain ⟨s', π, h1, h2, h3, _, _, h6, _⟩ := C02_quickselect_moves_rows
    (R := ℤ) (β := ℕ) (γ := Bool)
    ⟨[9, 3, 1, 3], some [10, 11, 12, 13], some [true, false, true, true]⟩ 0 4 2 (by decide)
    (by intro l hl; cases hl; rfl) (by intro l hl; cases hl; rfl)
  exact ⟨s', π, h1, h2, h3, h6⟩

/-- **C59.** `partition(data, start, end, p)` returns a boundary `h` in
`[start, end]`: everything in `[start, h)` is below `p`, everything in `[h, end)`
is not, rows are moved as in C02, and `h - start` counts the elements below `p`. -/
theorem C59_partition (s : QState R β γ) (start end_ : ℕ) (p : R)
    (hse : start ≤ end_) (hlen : end_ ≤ s.data.length)
    (hx1 : ∀ l, s.extra1 = some l → l.length = s.data.length)
    (hx2 : ∀ l, s.extra2 = some l → l.length = s.data.length) :
    ∃ s' h π, partition s start end_ p = .ok (s', h) ∧ MovesOnly π start end_ ∧
      Rearranged π s.data s'.data ∧ RearrangedOpt π s.extra1 s'.extra1 ∧
      RearrangedOpt π s.extra2 s'.extra2 ∧ start ≤ h ∧ h ≤ end_ ∧
      (∀ m x, start ≤ m → m < h → s'.data[m]? = some x → x < p) ∧
      (∀ m x, h ≤ m → m < end_ → s'.data[m]? = some x → p ≤ x) ∧
      (slice s.data start end_).countP (· < p) = h - start := by
  obtain ⟨s', h, π, e, mv, mo, a1, a2, a3, a4⟩ := partitionLoop_ok p start end_ (end_ - start)
    start start s (le_refl _) (le_refl _) (by omega)
    ⟨hlen, fun l hl => by rw [hx1 l hl]; exact hlen, fun l hl => by rw [hx2 l hl]; exact hlen⟩
    (fun m x _ _ => by omega) (fun m x _ _ => by omega)
  replace a4 := fun m x b c d => not_lt.mp (a4 m x b c d)
  refine ⟨s', h, π, e, mo, mv.1, mv.2.1, mv.2.2, a1, a2, a3, a4, ?_⟩
  have hp : (slice s'.data start end_).Perm (slice s.data start end_) :=
    mv.1.slice_perm mo hse hlen
  rw [← hp.countP_eq]
  have hlen' : end_ ≤ s'.data.length := by rw [mv.1.1]; exact hlen
  have hsplit : slice s'.data start end_ = slice s'.data start h ++ slice s'.data h end_ := by
    apply List.ext_getElem?
    intro m
    rw [List.getElem?_append]
    have hl : (slice s'.data start h).length = h - start := by
      simp [slice]; omega
    rw [hl, getElem?_slice, getElem?_slice, getElem?_slice]
    by_cases hm : m < h - start
    · rw [if_pos hm, if_pos (by omega), if_pos (by omega)]
    · rw [if_neg hm, show h + (m - (h - start)) = start + m by omega]
  rw [hsplit, List.countP_append]
  have c1 : (slice s'.data start h).countP (· < p) = h - start := by
    have hl : (slice s'.data start h).length = h - start := by simp [slice]; omega
    rw [← hl, List.countP_eq_length]
    intro x hx
    obtain ⟨m, hm⟩ := List.getElem?_of_mem hx
    rw [getElem?_slice] at hm
    split at hm
    · simpa using a3 _ x (by omega) (by omega) hm
    · cases hm
  have c2 : (slice s'.data h end_).countP (· < p) = 0 := by
    rw [List.countP_eq_zero]
    intro x hx
    obtain ⟨m, hm⟩ := List.getElem?_of_mem hx
    rw [getElem?_slice] at hm
    split at hm
    · simpa using a4 _ x (by omega) (by omega) hm
    · cases hm
  rw [c1, c2]; omega

/-- Non-vacuity: three of the four elements of the range are below 3. -/
example : ∃ s' h π, partition (R := ℤ) (β := ℕ) (γ := Bool)
      ⟨[9, 2, 7, 1, 0, 5], none, some [true, false, true, true, false, false]⟩ 1 5 3
        = .ok (s', h) ∧ MovesOnly π 1 5 ∧ h = 4 := by
  obtain ⟨s', h, π, h1, h2, _, _, _, h6, _, _, _, h10⟩ := C59_partition
    (R := ℤ) (β := ℕ) (γ := Bool)
    ⟨[9, 2, 7, 1, 0, 5], none, some [true, false, true, true, false, false]⟩ 1 5 3
    (by decide) (by decide) (by intro l hl; cases hl) (by intro l hl; cases hl; rfl)
  refine ⟨s', h, π, h1, h2, ?_⟩
  have : (slice [9, 2, 7, 1, 0, 5] 1 5).countP (· < (3 : ℤ)) = 3 := by decide
  simp only [this] at h10
  omega

end Verif

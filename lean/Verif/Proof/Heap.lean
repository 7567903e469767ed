import Verif.Model.Heap
import Verif.Proof.Quickselect
import Mathlib.Order.Lattice

namespace Verif

variable {K V : Type}

theorem heapParent_eq (i : ℕ) : heapParent i = (i - 1) / 2 := by
  unfold heapParent; omega

theorem swapList_perm {α : Type} {l : List α} {i j : ℕ} (hi : i < l.length)
    (hj : j < l.length) :
    ∃ l', swapList l i j = .ok l' ∧ l'.Perm l ∧ l'.length = l.length ∧
      l'[i]? = l[j]? ∧ l'[j]? = l[i]? ∧ ∀ m, m ≠ i → m ≠ j → l'[m]? = l[m]? := by
  obtain ⟨l', e, r⟩ := swapList_ok hi hj
  refine ⟨l', e, r.perm (MovesOnly.swap (by omega) (by omega)), r.1, ?_, ?_, ?_⟩
  · rw [r.2, Equiv.swap_apply_left]
  · rw [r.2, Equiv.swap_apply_right]
  · intro m h1 h2; rw [r.2, Equiv.swap_apply_of_ne_of_ne h1 h2]

section
variable [LinearOrder K]

/-- `l[i]` is at most its parent. -/
def OrdAt (l : List (K × V)) (i : ℕ) : Prop :=
  ∀ x p, l[i]? = some x → l[(i - 1) / 2]? = some p → x.1 ≤ p.1

/-- The heap property. -/
def HeapOrd (l : List (K × V)) : Prop := ∀ i, 0 < i → OrdAt l i

/-- Children of `c` are at most the parent of `c`. -/
def GrandAt (l : List (K × V)) (c : ℕ) : Prop :=
  0 < c → ∀ j x p, 0 < j → (j - 1) / 2 = c → l[j]? = some x →
    l[(c - 1) / 2]? = some p → x.1 ≤ p.1

theorem bubbleUpLoop_ok : ∀ (fuel : ℕ) (l : List (K × V)) (c : ℕ), c < l.length → c < fuel →
    (∀ i, 0 < i → i ≠ c → OrdAt l i) → GrandAt l c →
    ∃ l', bubbleUpLoop fuel l c = .ok l' ∧ l'.Perm l ∧ HeapOrd l' := by
  intro fuel
  induction fuel with
  | zero => intro l c _ h; omega
  | succ fuel ih =>
    intro l c hc hf ho hg
    have hp : (c - 1) / 2 < l.length := by omega
    simp only [bubbleUpLoop, fixUp, heapParent_eq, getItem_lt hp, getItem_lt hc, ok_bind]
    have gp : l[(c - 1) / 2]? = some l[(c - 1) / 2] := List.getElem?_eq_getElem hp
    have gc : l[c]? = some l[c] := List.getElem?_eq_getElem hc
    by_cases hlt : l[(c - 1) / 2].1 < l[c].1
    · have hc0 : 0 < c := by
        rcases Nat.eq_zero_or_pos c with h | h
        · subst h; exact absurd hlt (lt_irrefl _)
        · exact h
      obtain ⟨l1, e1, pm, len, s1, s2, s3⟩ := swapList_perm hc hp
      rw [gp] at s1; rw [gc] at s2
      have hne : (c - 1) / 2 ≠ c := by omega
      simp only [hlt, if_true, e1, ok_bind, pure_eq_ok, hne, if_false]
      obtain ⟨l', r1, r2, r3⟩ := ih l1 ((c - 1) / 2) (by omega) (by omega)
        (by
          intro i hi hin x p hx hpp
          by_cases h1 : i = c
          · subst h1
            rw [s1] at hx; rw [s2] at hpp
            cases hx; cases hpp; exact hlt.le
          · rw [s3 i h1 hin] at hx
            by_cases h2 : (i - 1) / 2 = c
            · rw [h2, s1] at hpp; cases hpp
              exact hg hc0 i x _ hi h2 hx gp
            · by_cases h3 : (i - 1) / 2 = (c - 1) / 2
              · rw [h3, s2] at hpp; cases hpp
                exact (ho i hi h1 x _ hx (by rw [h3]; exact gp)).trans hlt.le
              · rw [s3 _ h2 h3] at hpp
                exact ho i hi h1 x p hx hpp)
        (by
          intro hpos j x p hj hjp hx hpp
          have ha : ((c - 1) / 2 - 1) / 2 ≠ c := by omega
          have hb : ((c - 1) / 2 - 1) / 2 ≠ (c - 1) / 2 := by omega
          rw [s3 _ ha hb] at hpp
          have hpar : l[(c - 1) / 2].1 ≤ p.1 := ho _ hpos hne _ _ gp hpp
          by_cases h1 : j = c
          · subst h1; rw [s1] at hx; cases hx; exact hpar
          · rw [s3 j h1 (by omega)] at hx
            exact (ho j hj h1 x _ hx (by rw [hjp]; exact gp)).trans hpar)
      exact ⟨l', r1, r2.trans pm, r3⟩
    · simp only [hlt, if_false, pure_eq_ok, ok_bind, if_true]
      refine ⟨l, rfl, List.Perm.refl _, ?_⟩
      intro i hi
      by_cases h : i = c
      · subst h
        intro x p hx hpp
        rw [gc] at hx; rw [gp] at hpp
        cases hx; cases hpp; exact not_lt.mp hlt
      · exact ho i hi h

theorem bubbleUp_ok (l : List (K × V)) (x : K × V) (h : HeapOrd l) :
    ∃ l', bubbleUp (l ++ [x]) = .ok l' ∧ l'.Perm (x :: l) ∧ HeapOrd l' := by
  obtain ⟨l', r1, r2, r3⟩ := bubbleUpLoop_ok ((l ++ [x]).length + 1) (l ++ [x])
    ((l ++ [x]).length - 1) (by simp) (by omega)
    (by
      intro i hi hne a p ha hp
      have hil : i < l.length := by
        by_contra hc
        have : i < (l ++ [x]).length := by
          by_contra hcc
          rw [List.getElem?_eq_none (by omega)] at ha; cases ha
        simp at this hne; omega
      rw [List.getElem?_append_left hil] at ha
      rw [List.getElem?_append_left (by omega)] at hp
      exact h i hi a p ha hp)
    (by
      intro hpos j a p hj hjp ha hp
      have : j < (l ++ [x]).length := by
        by_contra hcc
        rw [List.getElem?_eq_none (by omega)] at ha; cases ha
      simp at this hjp; omega)
  exact ⟨l', r1, r2.trans (List.perm_append_singleton _ _), r3⟩

/-- `getLocalMax` returns the position of the largest among `i` and its children. -/
theorem getLocalMax_ok (l : List (K × V)) (i : ℕ) :
    (getLocalMax l i = .ok i ∧ ∀ j x y, 0 < j → (j - 1) / 2 = i → l[j]? = some x →
      l[i]? = some y → x.1 ≤ y.1) ∨
    (∃ m x y, getLocalMax l i = .ok m ∧ i < m ∧ m < l.length ∧ (m - 1) / 2 = i ∧
      l[m]? = some x ∧ l[i]? = some y ∧ y.1 < x.1 ∧
      ∀ j z, 0 < j → (j - 1) / 2 = i → l[j]? = some z → z.1 ≤ x.1) := by
  unfold getLocalMax heapLeft heapRight
  by_cases h1 : 2 * i + 1 ≥ l.length
  · left
    simp only [h1, if_true, pure_eq_ok]
    refine ⟨trivial, ?_⟩
    intro j x y hj hji hx
    rw [List.getElem?_eq_none (by omega)] at hx; cases hx
  · have hi' : i < l.length := by omega
    simp only [h1, if_false]
    have g1 : l[2 * i + 1]? = some (l[2 * i + 1]'(by omega)) :=
      List.getElem?_eq_getElem (by omega)
    have gi : l[i]? = some (l[i]'hi') := List.getElem?_eq_getElem hi'
    by_cases h2 : 2 * i + 2 ≥ l.length
    · simp only [h2, if_true, getItem_ok g1, getItem_ok gi, ok_bind, pure_eq_ok]
      by_cases h3 : l[i].1 < (l[2 * i + 1]'(by omega)).1
      · right
        simp only [h3, if_true]
        refine ⟨_, _, _, rfl, by omega, by omega, by omega, g1, gi, h3, ?_⟩
        intro j z hj hji hz
        have : j < l.length := by
          by_contra hc
          rw [List.getElem?_eq_none (by omega)] at hz; cases hz
        have hj1 : j = 2 * i + 1 := by omega
        subst hj1
        rw [g1] at hz; cases hz; exact le_refl _
      · left
        simp only [h3, if_false]
        refine ⟨trivial, ?_⟩
        intro j x y hj hji hx hy
        have : j < l.length := by
          by_contra hc
          rw [List.getElem?_eq_none (by omega)] at hx; cases hx
        have hj1 : j = 2 * i + 1 := by omega
        subst hj1
        rw [g1] at hx; rw [gi] at hy; cases hx; cases hy; exact not_lt.mp h3
    · have g2 : l[2 * i + 2]? = some (l[2 * i + 2]'(by omega)) :=
        List.getElem?_eq_getElem (by omega)
      simp only [h2, if_false, getItem_ok g1, getItem_ok gi, getItem_ok g2, ok_bind,
        pure_eq_ok]
      have hch : ∀ j, 0 < j → (j - 1) / 2 = i → j = 2 * i + 1 ∨ j = 2 * i + 2 := by
        intro j h h'; omega
      by_cases h3 : (l[2 * i + 1]'(by omega)).1 < (l[2 * i + 2]'(by omega)).1
      · simp only [h3, if_true, getItem_ok g2, ok_bind]
        have hmax : ∀ j z, 0 < j → (j - 1) / 2 = i → l[j]? = some z →
            z.1 ≤ (l[2 * i + 2]'(by omega)).1 := by
          intro j z hj hji hz
          rcases hch j hj hji with h | h <;> subst h
          · rw [g1] at hz; cases hz; exact h3.le
          · rw [g2] at hz; cases hz; exact le_refl _
        by_cases h4 : l[i].1 < (l[2 * i + 2]'(by omega)).1
        · right
          simp only [h4, if_true]
          exact ⟨_, _, _, rfl, by omega, by omega, by omega, g2, gi, h4, hmax⟩
        · left
          simp only [h4, if_false]
          refine ⟨trivial, ?_⟩
          intro j x y hj hji hx hy
          rw [gi] at hy; cases hy
          exact (hmax j x hj hji hx).trans (not_lt.mp h4)
      · simp only [h3, if_false, getItem_ok g1, ok_bind]
        have hmax : ∀ j z, 0 < j → (j - 1) / 2 = i → l[j]? = some z →
            z.1 ≤ (l[2 * i + 1]'(by omega)).1 := by
          intro j z hj hji hz
          rcases hch j hj hji with h | h <;> subst h
          · rw [g1] at hz; cases hz; exact le_refl _
          · rw [g2] at hz; cases hz; exact not_lt.mp h3
        by_cases h4 : l[i].1 < (l[2 * i + 1]'(by omega)).1
        · right
          simp only [h4, if_true]
          exact ⟨_, _, _, rfl, by omega, by omega, by omega, g1, gi, h4, hmax⟩
        · left
          simp only [h4, if_false]
          refine ⟨trivial, ?_⟩
          intro j x y hj hji hx hy
          rw [gi] at hy; cases hy
          exact (hmax j x hj hji hx).trans (not_lt.mp h4)

theorem bubbleDownLoop_ok : ∀ (fuel : ℕ) (l : List (K × V)) (c : ℕ),
    (c < l.length ∨ (l = [] ∧ c = 0)) → l.length < fuel + c →
    (∀ i, 0 < i → (i - 1) / 2 ≠ c → OrdAt l i) → GrandAt l c →
    ∃ l', bubbleDownLoop fuel l c = .ok l' ∧ l'.Perm l ∧ HeapOrd l' := by
  intro fuel
  induction fuel with
  | zero =>
    intro l c h h'
    omega
  | succ fuel ih =>
    intro l c hc hf ho hg
    rcases getLocalMax_ok l c with ⟨e, hmax⟩ | ⟨m, xm, xc, e, hcm, hml, hmp, gm, gc, hlt, hmax⟩
    · refine ⟨l, ?_, List.Perm.refl _, ?_⟩
      · simp [bubbleDownLoop, fixDown, e]
      · intro i hi
        by_cases h : (i - 1) / 2 = c
        · intro x p hx hp
          rw [h] at hp
          exact hmax i x p hi h hx hp
        · exact ho i hi h
    · obtain ⟨l1, e1, pm, len, s1, s2, s3⟩ := swapList_perm (l := l) (i := c) (j := m)
        (by omega) hml
      rw [gm] at s1; rw [gc] at s2
      have hne : c ≠ m := by omega
      obtain ⟨l', r1, r2, r3⟩ := ih l1 m (Or.inl (by omega)) (by omega)
        (by
          intro i hi hin x p hx hp
          by_cases h1 : i = m
          · subst h1
            rw [s2] at hx; cases hx
            rw [hmp, s1] at hp; cases hp
            exact hlt.le
          · by_cases h2 : i = c
            · subst h2
              rw [s1] at hx; cases hx
              rw [s3 _ (by omega) hin] at hp
              exact hg hi m _ p (by omega) hmp gm hp
            · rw [s3 i h2 h1] at hx
              by_cases h3 : (i - 1) / 2 = c
              · rw [h3, s1] at hp; cases hp
                exact hmax i x hi h3 hx
              · rw [s3 _ h3 hin] at hp
                exact ho i hi h3 x p hx hp)
        (by
          intro hpos j x p hj hjp hx hp
          rw [hmp, s1] at hp; cases hp
          rw [s3 j (by omega) (by omega)] at hx
          exact ho j hj (by omega) x _ hx (by rw [hjp]; exact gm))
      refine ⟨l', ?_, r2.trans pm, r3⟩
      simp [bubbleDownLoop, fixDown, e, hcm, e1, hne, r1]

theorem bubbleDown_ok (l : List (K × V)) (h : ∀ i, 0 < i → (i - 1) / 2 ≠ 0 → OrdAt l i) :
    ∃ l', bubbleDown l = .ok l' ∧ l'.Perm l ∧ HeapOrd l' := by
  refine bubbleDownLoop_ok (l.length + 1) l 0 ?_ (by omega) h (fun h => absurd h (by omega))
  cases l
  · right; exact ⟨rfl, rfl⟩
  · left; simp

theorem HeapOrd.le_root {l : List (K × V)} (h : HeapOrd l) {r : K × V} (hr : l[0]? = some r) :
    ∀ (i : ℕ) (x : K × V), l[i]? = some x → x.1 ≤ r.1 := by
  intro i
  induction i using Nat.strong_induction_on with
  | _ i ih =>
    intro x hx
    rcases Nat.eq_zero_or_pos i with h0 | h0
    · subst h0; rw [hr] at hx; cases hx; exact le_refl _
    · have hlt : i < l.length := by
        by_contra hc
        rw [List.getElem?_eq_none (by omega)] at hx; cases hx
      have hp : (i - 1) / 2 < l.length := by omega
      have gp : l[(i - 1) / 2]? = some l[(i - 1) / 2] := List.getElem?_eq_getElem hp
      exact (h i h0 x _ hx gp).trans (ih _ (by omega) _ gp)

theorem HeapOrd.root_max {x : K × V} {l : List (K × V)} (h : HeapOrd (x :: l)) :
    ∀ y ∈ x :: l, y.1 ≤ x.1 := by
  intro y hy
  obtain ⟨m, hm⟩ := List.getElem?_of_mem hy
  exact HeapOrd.le_root h (by simp) m y hm

namespace MaxHeap

/-- Reachable heaps satisfy the heap property. -/
def Ok (h : MaxHeap K V) : Prop := HeapOrd h.heap

theorem init_ok : (init : MaxHeap K V).Ok := by
  intro i _ x p hx; simp [init] at hx

theorem add_ok (h : MaxHeap K V) (k : K) (v : V) (hh : h.Ok) :
    ∃ h', h.add k v = .ok h' ∧ h'.Ok ∧ h'.heap.Perm ((k, v) :: h.heap) := by
  obtain ⟨l, r1, r2, r3⟩ := bubbleUp_ok h.heap (k, v) hh
  exact ⟨⟨l, h.iter⟩, by simp [add, r1], r3, r2⟩

theorem pop_ok (h : MaxHeap K V) (hh : h.Ok) :
    (h.heap = [] ∧ h.pop = .ok (none, h)) ∨
    ∃ x h', h.pop = .ok (some x, h') ∧ h'.Ok ∧ h.heap.Perm (x :: h'.heap) ∧
      h.heap[0]? = some x ∧ ∀ y ∈ h.heap, y.1 ≤ x.1 := by
  rcases hl : h.heap with _ | ⟨x, t⟩
  · left; exact ⟨rfl, by simp [pop, hl]⟩
  · right
    have hord : HeapOrd (x :: t) := by rw [← hl]; exact hh
    have hmax : ∀ y ∈ x :: t, y.1 ≤ x.1 := hord.root_max
    have hpop : ∃ last rest, (x :: t).getLast? = some last ∧
        ((x :: t).set 0 last).dropLast = rest ∧ (x :: rest).Perm (x :: t) ∧
        (∀ i, 0 < i → (i - 1) / 2 ≠ 0 → OrdAt rest i) := by
      rcases List.eq_nil_or_concat' t with rfl | ⟨u, z, rfl⟩
      · refine ⟨x, [], by simp, by simp, List.Perm.refl _, ?_⟩
        intro i _ _ a p ha; simp at ha
      · refine ⟨z, z :: u, ?_, ?_, ?_, ?_⟩
        · rw [← List.cons_append, List.getLast?_append]; simp
        · rw [List.set_cons_zero, ← List.cons_append, List.dropLast_concat]
        · exact ((List.perm_append_singleton z u).symm).cons x
        · intro i hi hpi a p ha hp
          have ha' : (x :: (u ++ [z]))[i]? = some a := by
            obtain ⟨i', rfl⟩ : ∃ i', i = i' + 1 := ⟨i - 1, by omega⟩
            simp only [List.getElem?_cons_succ] at ha ⊢
            rw [List.getElem?_append_left]
            · exact ha
            · by_contra hc; rw [List.getElem?_eq_none (by omega)] at ha; cases ha
          have hp' : (x :: (u ++ [z]))[(i - 1) / 2]? = some p := by
            obtain ⟨q, hq⟩ : ∃ q, (i - 1) / 2 = q + 1 := ⟨(i - 1) / 2 - 1, by omega⟩
            rw [hq] at hp ⊢
            simp only [List.getElem?_cons_succ] at hp ⊢
            rw [List.getElem?_append_left]
            · exact hp
            · by_contra hc; rw [List.getElem?_eq_none (by omega)] at hp; cases hp
          exact hord i hi a p ha' hp'
    obtain ⟨last, rest, h1, h2, h3, h4⟩ := hpop
    obtain ⟨l', r1, r2, r3⟩ := bubbleDown_ok rest h4
    refine ⟨x, ⟨l', h.iter⟩, ?_, r3, ?_, by simp, hmax⟩
    · have e1 : getItem (x :: t) ((x :: t).length - 1) = .ok last := by
        rw [getItem_eq_ok, ← List.getLast?_eq_getElem?, h1]
      have e2 : setItem (x :: t) 0 last = .ok ((x :: t).set 0 last) := setItem_lt (by simp)
      have e3 : getItem (x :: t) 0 = .ok x := getItem_ok (by simp)
      simp only [pop, hl]
      rw [e3, e1, ok_bind, ok_bind, e2, ok_bind, h2, r1]
      rfl
    · exact h3.symm.trans (r2.symm.cons x)

omit [LinearOrder K] in
theorem top_ok (h : MaxHeap K V) : h.top = .ok h.heap[0]? := by
  unfold top
  split
  · rename_i hl; simp [hl]
  · rename_i a t hl; simp [hl, getItem]

end MaxHeap

end

theorem MaxHeap.collectLoop_ok (l : List (K × V)) : ∀ (fuel n : ℕ), l.length - n < fuel →
    n ≤ l.length →
    MaxHeap.collectLoop fuel ⟨l, .live n⟩ = .ok (l.drop n, ⟨l, .exhausted⟩) := by
  intro fuel
  induction fuel with
  | zero => intro n h; omega
  | succ fuel ih =>
    intro n h hn
    by_cases hl : n < l.length
    · have : l[n]? = some l[n] := List.getElem?_eq_getElem hl
      simp only [collectLoop, next, this, ok_bind]
      rw [ih (n + 1) (by omega) (by omega), ok_bind, pure_eq_ok]
      rw [List.drop_eq_getElem_cons hl]
    · have : l[n]? = none := List.getElem?_eq_none (by omega)
      simp only [collectLoop, next, this, ok_bind, pure_eq_ok]
      rw [List.drop_eq_nil_of_le (by omega)]

theorem MaxHeap.toList_ok (h : MaxHeap K V) :
    h.toList = .ok (h.heap, ⟨h.heap, .exhausted⟩) := by
  unfold toList startIter
  rw [MaxHeap.collectLoop_ok h.heap _ 0 (by omega) (by omega)]
  simp

end Verif

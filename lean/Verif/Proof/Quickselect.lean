import Verif.Model.Quickselect
import Verif.Proof.Permute
import Verif.Spec.Numbers
import Mathlib.Tactic.Linarith
import Mathlib.Order.Basic

namespace Verif

variable {R β γ : Type}

/-- All arrays reach at least up to `e`. -/
def QOk (e : ℕ) (s : QState R β γ) : Prop :=
  e ≤ s.data.length ∧ (∀ l, s.extra1 = some l → e ≤ l.length) ∧
    (∀ l, s.extra2 = some l → e ≤ l.length)

/-- The three arrays are rearranged by the same `π`. -/
def QMoved (π : Equiv.Perm ℕ) (s s' : QState R β γ) : Prop :=
  Rearranged π s.data s'.data ∧ RearrangedOpt π s.extra1 s'.extra1 ∧
    RearrangedOpt π s.extra2 s'.extra2

theorem QMoved.refl (s : QState R β γ) : QMoved 1 s s :=
  ⟨.refl _, .refl _, .refl _⟩

theorem QMoved.trans {π σ : Equiv.Perm ℕ} {s s' s'' : QState R β γ}
    (h : QMoved π s s') (h' : QMoved σ s' s'') : QMoved (π * σ) s s'' :=
  ⟨h.1.trans h'.1, h.2.1.trans h'.2.1, h.2.2.trans h'.2.2⟩

theorem QOk.mono {e e' : ℕ} {s : QState R β γ} (h : QOk e s) (he : e' ≤ e) :
    QOk e' s :=
  ⟨by have := h.1; omega, fun l hl => by have := h.2.1 l hl; omega,
    fun l hl => by have := h.2.2 l hl; omega⟩

theorem QOk.moved {π : Equiv.Perm ℕ} {e : ℕ} {s s' : QState R β γ} (h : QOk e s)
    (hm : QMoved π s s') : QOk e s' := by
  obtain ⟨h1, h2, h3⟩ := h
  obtain ⟨m1, m2, m3⟩ := hm
  refine ⟨by rw [m1.1]; exact h1, ?_, ?_⟩
  · intro l hl
    rw [hl] at m2
    cases he : s.extra1 with
    | none => rw [he] at m2; exact m2.elim
    | some a => rw [he] at m2; rw [m2.1]; exact h2 _ he
  · intro l hl
    rw [hl] at m3
    cases he : s.extra2 with
    | none => rw [he] at m3; exact m3.elim
    | some a => rw [he] at m3; rw [m3.1]; exact h3 _ he

theorem swapList_ok {α : Type} {l : List α} {i j : ℕ} (hi : i < l.length)
    (hj : j < l.length) :
    ∃ l', swapList l i j = .ok l' ∧ Rearranged (Equiv.swap i j) l l' := by
  refine ⟨(l.set i l[j]).set j l[i], ?_, by simp, ?_⟩
  · simp [swapList, getItem_lt hi, getItem_lt hj, setItem_lt, hi, hj]
  · intro m
    by_cases h1 : m = j
    · subst h1; simp [Equiv.swap_apply_right, hi, hj]
    · rw [List.getElem?_set_ne (fun h => h1 h.symm)]
      by_cases h2 : m = i
      · subst h2; simp [Equiv.swap_apply_left, hi, hj]
      · rw [List.getElem?_set_ne (fun h => h2 h.symm), Equiv.swap_apply_of_ne_of_ne h2 h1]

theorem swapOpt_ok {α : Type} {l : Option (List α)} {i j : ℕ}
    (h : ∀ a, l = some a → i < a.length ∧ j < a.length) :
    ∃ l', swapOpt l i j = .ok l' ∧ RearrangedOpt (Equiv.swap i j) l l' := by
  cases l with
  | none => exact ⟨none, rfl, trivial⟩
  | some a =>
    obtain ⟨l', h1, h2⟩ := swapList_ok (h a rfl).1 (h a rfl).2
    exact ⟨some l', by simp [swapOpt, h1], h2⟩

theorem swapAll_ok {s : QState R β γ} {e i j : ℕ} (hs : QOk e s) (hi : i < e)
    (hj : j < e) :
    ∃ s', swapAll s i j = .ok s' ∧ QMoved (Equiv.swap i j) s s' := by
  obtain ⟨d, h1, h1'⟩ := swapList_ok (l := s.data) (i := i) (j := j)
    (by have := hs.1; omega) (by have := hs.1; omega)
  obtain ⟨x1, h2, h2'⟩ := swapOpt_ok (l := s.extra1) (i := i) (j := j)
    (fun a ha => by have := hs.2.1 a ha; omega)
  obtain ⟨x2, h3, h3'⟩ := swapOpt_ok (l := s.extra2) (i := i) (j := j)
    (fun a ha => by have := hs.2.2 a ha; omega)
  exact ⟨⟨d, x1, x2⟩, by simp [swapAll, h1, h2, h3], h1', h2', h3'⟩

variable [LT R] [DecidableLT R] [StrictLT R]

omit [StrictLT R] in
theorem partitionLoop_ok (p : R) (start end_ : ℕ) :
    ∀ (cnt j higher : ℕ) (s : QState R β γ), start ≤ higher → higher ≤ j →
      j + cnt = end_ → QOk end_ s →
      (∀ m x, start ≤ m → m < higher → s.data[m]? = some x → x < p) →
      (∀ m x, higher ≤ m → m < j → s.data[m]? = some x → ¬ x < p) →
      ∃ s' h π, partitionLoop p cnt j higher s = .ok (s', h) ∧ QMoved π s s' ∧
        MovesOnly π start end_ ∧ start ≤ h ∧ h ≤ end_ ∧
        (∀ m x, start ≤ m → m < h → s'.data[m]? = some x → x < p) ∧
        (∀ m x, h ≤ m → m < end_ → s'.data[m]? = some x → ¬ x < p) := by
  intro cnt
  induction cnt with
  | zero =>
    intro j higher s h1 h2 h3 h4 h5 h6
    exact ⟨s, higher, 1, rfl, .refl s, .one _ _, h1, by omega, h5,
      fun m x a b c => h6 m x a (by omega) c⟩
  | succ cnt ih =>
    intro j higher s h1 h2 h3 h4 h5 h6
    have hj : j < s.data.length := by have := h4.1; omega
    simp only [partitionLoop, getItem_lt hj, ok_bind]
    by_cases hx : s.data[j] < p
    · simp only [hx, if_true]
      obtain ⟨s1, e1, m1⟩ := swapAll_ok h4 (i := higher) (j := j) (by omega) (by omega)
      simp only [e1, ok_bind]
      obtain ⟨s', h, π, e2, m2, o2, r⟩ := ih (j + 1) (higher + 1) s1 (by omega) (by omega)
        (by omega) (h4.moved m1)
        (by
          intro m x a b c
          rw [m1.1.2] at c
          by_cases hm : m = higher
          · subst hm
            rw [Equiv.swap_apply_left, List.getElem?_eq_getElem hj] at c
            cases c; exact hx
          · rw [Equiv.swap_apply_of_ne_of_ne hm (by omega)] at c
            exact h5 m x a (by omega) c)
        (by
          intro m x a b c
          rw [m1.1.2] at c
          by_cases hm : m = j
          · subst hm
            rw [Equiv.swap_apply_right] at c
            exact h6 higher x (le_refl _) (by omega) c
          · rw [Equiv.swap_apply_of_ne_of_ne (by omega) hm] at c
            exact h6 m x (by omega) (by omega) c)
      exact ⟨s', h, _, e2, m1.trans m2,
        (MovesOnly.swap (by omega) (by omega)).mul o2, r⟩
    · simp only [hx, if_false]
      refine ih (j + 1) higher s h1 (by omega) (by omega) h4 h5 ?_
      intro m x a b c
      by_cases hm : m = j
      · subst hm
        rw [List.getElem?_eq_getElem hj] at c
        cases c; exact hx
      · exact h6 m x a (by omega) c

/-- What one selection step or the whole loop establishes on a window. -/
def Selected (d : List R) (st en k : ℕ) : Prop :=
  (∀ m x y, st ≤ m → m < k → d[m]? = some x → d[k]? = some y → ¬ y < x) ∧
  (∀ m x y, k ≤ m → m < en → d[m]? = some x → d[k]? = some y → ¬ x < y)

theorem quickselectLoop_ok (k : ℕ) :
    ∀ (fuel st en : ℕ) (higher : ℤ) (s : QState R β γ), st ≤ k → k < en → QOk en s →
      higher ≠ (k : ℤ) + 1 →
      (2 * (en - st) + 1 ≤ fuel ∨ (2 * (en - st) ≤ fuel ∧
        ∃ m x y, st ≤ m ∧ m < en ∧ s.data[m]? = some x ∧ s.data[k]? = some y ∧ y < x)) →
      ∃ s' π, quickselectLoop k fuel st en higher s = .ok s' ∧ QMoved π s s' ∧
        MovesOnly π st en ∧ Selected s'.data st en k := by
  intro fuel
  induction fuel with
  | zero => intro st en higher s h1 h2 h3 h4 h5; omega
  | succ fuel ih =>
    intro st en higher s h1 h2 h3 h4 h5
    have hk : k < s.data.length := by have := h3.1; omega
    rw [quickselectLoop, if_neg h4]
    simp only [getItem_lt hk, ok_bind]
    set p := s.data[k] with hp
    have hpk : s.data[k]? = some p := List.getElem?_eq_getElem hk
    obtain ⟨s1, e1, m1⟩ := swapAll_ok h3 (i := st) (j := k) (by omega) h2
    have hs1 := h3.moved m1
    obtain ⟨s2, h, π2, e2, m2, o2, a1, a2, a3, a4⟩ :=
      partitionLoop_ok p (st + 1) en (en - (st + 1)) (st + 1) (st + 1) s1 (le_refl _)
        (le_refl _) (by omega) hs1 (fun m x _ _ => by omega) (fun m x _ _ => by omega)
    have hs2 := hs1.moved m2
    obtain ⟨s3, e3, m3⟩ := swapAll_ok hs2 (i := st) (j := h - 1) (by omega) (by omega)
    have hs3 := hs2.moved m3
    simp only [e1, ok_bind, partition, e2, e3]
    -- values after the three steps
    have v1 : s1.data[st]? = some p := by rw [m1.1.2, Equiv.swap_apply_left, hpk]
    have v2 : s2.data[st]? = some p := by rw [m2.1.2, o2 st (by omega), v1]
    have v3 : s3.data[h - 1]? = some p := by rw [m3.1.2, Equiv.swap_apply_right, v2]
    have v4 : ∀ m x, st ≤ m → m < h - 1 → s3.data[m]? = some x → x < p := by
      intro m x b c d
      rw [m3.1.2] at d
      by_cases hm : m = st
      · subst hm
        rw [Equiv.swap_apply_left] at d
        exact a3 (h - 1) x (by omega) (by omega) d
      · rw [Equiv.swap_apply_of_ne_of_ne hm (by omega)] at d
        exact a3 m x (by omega) (by omega) d
    have v5 : ∀ m x, h ≤ m → m < en → s3.data[m]? = some x → ¬ x < p := by
      intro m x b c d
      rw [m3.1.2, Equiv.swap_apply_of_ne_of_ne (by omega) (by omega)] at d
      exact a4 m x b c d
    have mall := (m1.trans m2).trans m3
    have oall : MovesOnly (Equiv.swap st k * π2 * Equiv.swap st (h - 1)) st en :=
      ((MovesOnly.swap (by omega) (by omega)).mul (o2.mono (by omega) (le_refl _))).mul
        (MovesOnly.swap (by omega) (by omega))
    -- a strictly larger element in the window forces progress
    have hlt : (∃ m x y, st ≤ m ∧ m < en ∧ s.data[m]? = some x ∧ s.data[k]? = some y ∧ y < x) →
        h < en := by
      rintro ⟨m, x, y, b, c, d, e, f⟩
      rw [hpk] at e; cases e
      by_contra hc
      have hhe : h = en := by omega
      -- position of m after the moves
      obtain ⟨m', hm'⟩ : ∃ m', (Equiv.swap st k * π2 * Equiv.swap st (h - 1)) m' = m :=
        ⟨_, Equiv.apply_symm_apply _ m⟩
      have hin : st ≤ m' ∧ m' < en := by
        by_contra hcc
        have := oall m' (by omega)
        rw [hm'] at this; omega
      have hv : s3.data[m']? = some x := by rw [mall.1.2, hm', d]
      by_cases hlast : m' = h - 1
      · rw [hlast, v3] at hv; cases hv; exact StrictLT.irrefl _ f
      · exact StrictLT.asymm f (v4 m' x hin.1 (by omega) hv)
    by_cases hc : k ≤ h - 1
    · rw [if_pos hc]
      by_cases hdone : k + 1 = h
      · -- finished
        have hf : ∃ f', fuel = f' + 1 := ⟨fuel - 1, by omega⟩
        obtain ⟨f', rfl⟩ := hf
        refine ⟨s3, _, ?_, mall, oall, ?_, ?_⟩
        · rw [quickselectLoop, if_pos (by omega)]
        · intro m x y b c d e
          have hkh : k = h - 1 := by omega
          rw [hkh, v3] at e; cases e
          exact StrictLT.asymm (v4 m x b (by omega) d)
        · intro m x y b c d e
          have hkh : k = h - 1 := by omega
          rw [hkh, v3] at e; cases e
          by_cases hm : m = k
          · rw [hm, hkh, v3] at d; cases d; exact StrictLT.irrefl _
          · exact v5 m x (by omega) c d
      · have hk3 : k < s3.data.length := by have := hs3.1; omega
        obtain ⟨s', π, r1, r2, r3, r4⟩ := ih st h h s3 h1 (by omega) (hs3.mono a2) (by omega)
          (by
            by_cases hhe : h < en
            · left
              omega
            · right
              refine ⟨?_, h - 1, p, s3.data[k], by omega, by omega, v3,
                List.getElem?_eq_getElem hk3, ?_⟩
              · rcases h5 with h5 | ⟨h5, h6⟩
                · omega
                · exact absurd (hlt h6) hhe
              · exact v4 k _ h1 (by omega) (List.getElem?_eq_getElem hk3))
        refine ⟨s', _, r1, mall.trans r2, oall.mul (r3.mono (le_refl _) a2), r4.1, ?_⟩
        intro m x y b c d e
        by_cases hm : m < h
        · exact r4.2 m x y b hm d e
        · -- m lies beyond the new window
          have hd : ¬ x < p := by
            rw [r2.1.2, r3 m (by omega)] at d
            exact v5 m x (by omega) c d
          rw [r2.1.2] at e
          have := r3.mem (m := k) (by omega)
          by_cases hl : π k = h - 1
          · rw [hl, v3] at e; cases e; exact hd
          · exact fun hxy => hd (StrictLT.trans _ _ _ hxy (v4 _ y this.1 (by omega) e))
    · rw [if_neg hc]
      obtain ⟨s', π, r1, r2, r3, r4⟩ := ih h en h s3 (by omega) h2 hs3 (by omega)
        (by left; omega)
      refine ⟨s', _, r1, mall.trans r2, oall.mul (r3.mono (by omega) (le_refl _)), ?_, r4.2⟩
      intro m x y b c d e
      by_cases hm : h ≤ m
      · exact r4.1 m x y hm c d e
      · have he : ¬ y < p := by
          rw [r2.1.2] at e
          have := r3.mem (m := k) (by omega)
          exact v5 _ y this.1 this.2 e
        rw [r2.1.2, r3 m (by omega)] at d
        by_cases hl : m = h - 1
        · rw [hl, v3] at d; cases d; exact he
        · exact fun hyx => he (StrictLT.trans _ _ _ hyx (v4 _ x b (by omega) d))

theorem quickselect_ok (s : QState R β γ) (start end_ k : ℕ) (hs : QOk end_ s) :
    ∃ s' π, quickselect s start end_ k = .ok s' ∧ QMoved π s s' ∧
      MovesOnly π start end_ ∧ (start ≤ k → k < end_ → Selected s'.data start end_ k) := by
  by_cases h : k < start ∨ end_ ≤ k
  · refine ⟨s, 1, by simp [quickselect, h], .refl s, .one _ _, ?_⟩
    intro a b; omega
  · obtain ⟨s', π, r1, r2, r3, r4⟩ := quickselectLoop_ok k (2 * (end_ - start) + 3) start end_
      (-1) s (by omega) (by omega) hs (by omega) (by left; omega)
    exact ⟨s', π, by simp [quickselect, h, r1], r2, r3, fun _ _ => r4⟩

end Verif

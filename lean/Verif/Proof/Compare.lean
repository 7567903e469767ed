import Verif.Model.Compare
import Verif.Proof.CallsTrace
import Mathlib.Tactic.Ring
import Mathlib.Tactic.Linarith

/-!
# Lemmas: comparisons made while partitioning
-/

set_option autoImplicit false
set_option linter.unusedSectionVars false

namespace Verif

open Calls

variable {T R β γ : Type} [LT R] [DecidableLT R]

/-- The comparison of numbers. -/
def lessThan (x y : R) : Bool := decide (x < y)

/-! ## The results are those of the other model -/

theorem answer_partitionLoopQ (p : R) : ∀ cnt j h (s : QState R β γ),
    (partitionLoopQ p cnt j h s).answer lessThan = partitionLoop p cnt j h s := by
  intro cnt
  induction cnt with
  | zero => intros; rfl
  | succ cnt ih =>
    intro j h s
    simp only [partitionLoopQ, partitionLoop, answer_bind, lift_eq, done_answer, metric_answer,
      ok_bind]
    congr 1; funext x
    by_cases hx : x < p
    · simp only [lessThan, hx, decide_true, if_true, answer_bind, done_answer, ih]
    · simp only [lessThan, hx, decide_false, if_false, Bool.false_eq_true, ih]

theorem answer_quickselectLoopQ (k : ℕ) : ∀ fuel st en h (s : QState R β γ),
    (quickselectLoopQ k fuel st en h s).answer lessThan = quickselectLoop k fuel st en h s := by
  intro fuel
  induction fuel with
  | zero => intros; rfl
  | succ fuel ih =>
    intro st en h s
    unfold quickselectLoopQ quickselectLoop
    split
    · rfl
    · simp only [answer_bind, lift_eq, done_answer, partitionQ, partition, answer_partitionLoopQ]
      congr 1; funext p; congr 1; funext s1; congr 1; funext r; congr 1; funext s3
      split <;> exact ih _ _ _ _

theorem answer_quickselectQ (s : QState R β γ) (start end_ k : ℕ) :
    (quickselectQ s start end_ k).answer lessThan = quickselect s start end_ k := by
  unfold quickselectQ quickselect
  split
  · rfl
  · exact answer_quickselectLoopQ _ _ _ _ _ _

theorem answer_partitionQ (a : VPArray T R) (s e k : ℕ) :
    (a.partitionQ s e k).answer lessThan = a.partition s e k := by
  simp only [VPArray.partitionQ, VPArray.partition, answer_bind, answer_quickselectQ]
  rfl

theorem answer_flatBuildLoopQ [Zero R] (d : T → T → R) (ρ : ℕ → ℕ) (p : VPParams R) :
    ∀ fuel stack st, (flatBuildLoopQ d ρ p fuel stack st).answer lessThan =
      flatBuildLoop d ρ p fuel stack st := by
  intro fuel
  induction fuel with
  | zero => intros; rfl
  | succ fuel ih =>
    intro stack st
    cases stack with
    | nil => rfl
    | cons se stack =>
      obtain ⟨s, e⟩ := se
      simp only [flatBuildLoopQ, flatBuildLoop, answer_bind, lift_eq, done_answer, answer_partitionQ]
      congr 1; funext st1; congr 1; funext a1; congr 1; funext r
      split <;> simp only [answer_bind, done_answer, ih]

theorem answer_flatBuildQ [Zero R] (d : T → T → R) (ρ : ℕ → ℕ) (p : VPParams R) (X : List T) :
    (flatBuildQ d ρ p X).answer lessThan = flatBuild d ρ p X := by
  unfold flatBuildQ flatBuild
  simp only
  split
  · simp only [answer_bind, answer_flatBuildLoopQ]; rfl
  · rfl

theorem answer_hierBuildRecQ [Zero R] [LE R] [DecidableLE R] (d : T → T → R) (ρ : ℕ → ℕ)
    (p : VPParams R) : ∀ fuel s e st, (hierBuildRecQ d ρ p fuel s e st).answer lessThan =
      hierBuildRec d ρ p fuel s e st := by
  intro fuel
  induction fuel with
  | zero => intros; rfl
  | succ fuel ih =>
    intro s e st
    unfold hierBuildRecQ hierBuildRec
    split
    · rfl
    · simp only [answer_bind, lift_eq, done_answer, answer_partitionQ]
      congr 1; funext st1; congr 1; funext v; congr 1; funext a1; congr 1; funext r
      congr 1; funext a2
      split
      · rfl
      · simp only [answer_bind, ih]; rfl

theorem answer_hierBuildQ [Zero R] [LE R] [DecidableLE R] (d : T → T → R) (ρ : ℕ → ℕ)
    (p : VPParams R) (X : List T) :
    (hierBuildQ d ρ p X).answer lessThan = hierBuild d ρ p X := by
  unfold hierBuildQ hierBuild
  simp only
  split
  · simp only [answer_bind, answer_hierBuildRecQ]; rfl
  · rfl

/-! ## Upper bounds -/

theorem trace_partitionLoopQ_le (p : R) : ∀ cnt j h (s : QState R β γ),
    ((partitionLoopQ p cnt j h s).trace lessThan).length ≤ cnt := by
  intro cnt
  induction cnt with
  | zero => intros; exact Nat.zero_le _
  | succ cnt ih =>
    intro j h s
    simp only [partitionLoopQ, lift_eq]
    cases h1 : getItem s.data j with
    | error e => simp
    | ok x =>
      simp only [trace_done_bind, trace_metric_bind, List.length_cons]
      split
      · cases h2 : swapAll s h j with
        | error e => simp
        | ok s1 =>
          simp only [trace_done_bind]
          have := ih (j + 1) (h + 1) s1
          omega
      · have := ih (j + 1) h s
        omega

theorem partitionLoop_le (p : R) : ∀ cnt j h (s : QState R β γ) r,
    partitionLoop p cnt j h s = .ok r → h ≤ r.2 ∧ r.2 ≤ h + cnt := by
  intro cnt
  induction cnt with
  | zero => intro j h s r hr; cases hr; simp
  | succ cnt ih =>
    intro j h s r hr
    simp only [partitionLoop] at hr
    obtain ⟨x, _, hr⟩ := bind_eq_ok.mp hr
    split at hr
    · obtain ⟨s1, _, hr⟩ := bind_eq_ok.mp hr
      have := ih _ _ _ _ hr
      omega
    · have := ih _ _ _ _ hr
      omega

/-- Whatever the arrays, one comparison at most per entry and pass. -/
theorem trace_quickselectLoopQ_le (k : ℕ) (w : ℕ) : ∀ fuel st en h (s : QState R β γ),
    1 ≤ w → en ≤ st + w →
    ((quickselectLoopQ k fuel st en h s).trace lessThan).length ≤ fuel * (w - 1) := by
  intro fuel
  induction fuel with
  | zero => intros; simp [quickselectLoopQ]
  | succ fuel ih =>
    intro st en h s hw1 hw
    unfold quickselectLoopQ
    split
    · simp
    · simp only [lift_eq]
      cases h1 : getItem s.data k with
      | error e => simp
      | ok p =>
        simp only [trace_done_bind]
        cases h2 : swapAll s st k with
        | error e => simp
        | ok s1 =>
          simp only [trace_done_bind]
          rw [trace_bind, partitionQ, answer_partitionLoopQ]
          have hle := trace_partitionLoopQ_le p (en - (st + 1)) (st + 1) (st + 1) s1
          rw [Nat.succ_mul]
          cases h3 : partitionLoop p (en - (st + 1)) (st + 1) (st + 1) s1 with
          | error e =>
            simp only [List.append_nil]
            omega
          | ok r =>
            obtain ⟨s2, h'⟩ := r
            have hb := partitionLoop_le p _ _ _ _ _ h3
            simp only at hb
            simp only [List.length_append]
            cases h4 : swapAll s2 st (h' - 1) with
            | error e =>
              simp only [trace_error_bind, List.length_nil]
              omega
            | ok s3 =>
              simp only [trace_done_bind]
              split
              · have := ih st h' h' s3 hw1 (by omega)
                omega
              · have := ih h' en h' s3 hw1 (by omega)
                omega

theorem trace_partitionLoopQ_eq (p : R) (end_ : ℕ) : ∀ cnt j h (s : QState R β γ), h ≤ j →
    j + cnt = end_ → QOk end_ s → ((partitionLoopQ p cnt j h s).trace lessThan).length = cnt := by
  intro cnt
  induction cnt with
  | zero => intros; rfl
  | succ cnt ih =>
    intro j h s h1 h2 h3
    have hj : j < s.data.length := by have := h3.1; omega
    simp only [partitionLoopQ, lift_eq, getItem_lt hj, trace_done_bind, trace_metric_bind,
      List.length_cons]
    split
    · obtain ⟨s1, e1, m1⟩ := swapAll_ok h3 (i := h) (j := j) (by omega) (by omega)
      simp only [e1, trace_done_bind]
      rw [ih (j + 1) (h + 1) s1 (by omega) (by omega) (h3.moved m1)]
    · rw [ih (j + 1) h s (by omega) (by omega) h3]

/-- One pass of the loop. -/
theorem quickselect_pass [StrictLT R] (k st en : ℕ) (s : QState R β γ) (h1 : st ≤ k) (h2 : k < en)
    (h3 : QOk en s) : ∃ p s1 s2 s3 h, getItem s.data k = .ok p ∧ s.data[k]? = some p ∧
      swapAll s st k = .ok s1 ∧ QOk en s1 ∧
      partitionLoop p (en - (st + 1)) (st + 1) (st + 1) s1 = .ok (s2, h) ∧
      swapAll s2 st (h - 1) = .ok s3 ∧ QOk en s3 ∧ st + 1 ≤ h ∧ h ≤ en ∧
      s3.data[h - 1]? = some p ∧
      (∀ m x, st ≤ m → m < h - 1 → s3.data[m]? = some x → x < p) ∧
      (∀ m x, st ≤ m → m < en → s3.data[m]? = some x →
        ∃ m', st ≤ m' ∧ m' < en ∧ s.data[m']? = some x) ∧
      ((∃ m x, st ≤ m ∧ m < en ∧ s.data[m]? = some x ∧ p < x) → h < en) := by
  have hk : k < s.data.length := by have := h3.1; omega
  set p := s.data[k] with hp
  have hpk : s.data[k]? = some p := List.getElem?_eq_getElem hk
  obtain ⟨s1, e1, m1⟩ := swapAll_ok h3 (i := st) (j := k) (by omega) h2
  have hs1 := h3.moved m1
  obtain ⟨s2, h, π2, e2, m2, o2, a1, a2, a3, a4⟩ :=
    partitionLoop_ok p (st + 1) en (en - (st + 1)) (st + 1) (st + 1) s1 (le_refl _)
      (le_refl _) (by omega) hs1 (fun m x _ _ => by omega) (fun m x _ _ => by omega)
  have hs2 := hs1.moved m2
  obtain ⟨s3, e3, m3⟩ := swapAll_ok hs2 (i := st) (j := h - 1) (by omega) (by omega)
  have hs3 := hs2.moved m3
  have v1 : s1.data[st]? = some p := by rw [m1.1.2, Equiv.swap_apply_left, hpk]
  have v2 : s2.data[st]? = some p := by rw [m2.1.2, o2 st (by omega), v1]
  have v3 : s3.data[h - 1]? = some p := by rw [m3.1.2, Equiv.swap_apply_right, v2]
  have v4 : ∀ m x, st ≤ m → m < h - 1 → s3.data[m]? = some x → x < p := by
    intro m x b c d
    rw [m3.1.2] at d
    by_cases hm : m = st
    · subst hm
      rw [Equiv.swap_apply_left] at d
      exact a3 (h - 1) x (by omega) (by omega) d
    · rw [Equiv.swap_apply_of_ne_of_ne hm (by omega)] at d
      exact a3 m x (by omega) (by omega) d
  have mall := (m1.trans m2).trans m3
  have oall : MovesOnly (Equiv.swap st k * π2 * Equiv.swap st (h - 1)) st en :=
    ((MovesOnly.swap (by omega) (by omega)).mul (o2.mono (by omega) (le_refl _))).mul
      (MovesOnly.swap (by omega) (by omega))
  refine ⟨p, s1, s2, s3, h, getItem_lt hk, hpk, e1, hs1, e2, e3, hs3, a1, a2, v3, v4, ?_, ?_⟩
  · intro m x b c d
    rw [mall.1.2] at d
    have := oall.mem (m := m) ⟨b, c⟩
    exact ⟨_, this.1, this.2, d⟩
  · rintro ⟨m, x, b, c, d, f⟩
    by_contra hc
    obtain ⟨m', hm'⟩ : ∃ m', (Equiv.swap st k * π2 * Equiv.swap st (h - 1)) m' = m :=
      ⟨_, Equiv.apply_symm_apply _ m⟩
    have hin : st ≤ m' ∧ m' < en := by
      by_contra hcc
      have := oall m' (by omega)
      rw [hm'] at this; omega
    have hv : s3.data[m']? = some x := by rw [mall.1.2, hm', d]
    by_cases hlast : m' = h - 1
    · rw [hlast, v3] at hv; cases hv; exact StrictLT.irrefl _ f
    · exact StrictLT.asymm f (v4 m' x hin.1 (by omega) hv)

/-- The number of comparisons of one pass and of the passes after it. -/
theorem trace_quickselectLoopQ_pass (k st en : ℕ) (s s1 s2 s3 : QState R β γ) (p : R) (h : ℕ)
    (fuel : ℕ) (higher : ℤ) (hh : higher ≠ (k : ℤ) + 1) (e0 : getItem s.data k = .ok p)
    (e1 : swapAll s st k = .ok s1) (q1 : QOk en s1) (hst : st < en)
    (e2 : partitionLoop p (en - (st + 1)) (st + 1) (st + 1) s1 = .ok (s2, h))
    (e3 : swapAll s2 st (h - 1) = .ok s3) :
    ((quickselectLoopQ k (fuel + 1) st en higher s).trace lessThan).length = (en - st - 1) +
      ((if k ≤ h - 1 then quickselectLoopQ k fuel st h h s3
        else quickselectLoopQ k fuel h en h s3).trace lessThan).length := by
  rw [quickselectLoopQ, if_neg hh]
  simp only [lift_eq, e0, e1, trace_done_bind]
  rw [trace_bind, partitionQ, answer_partitionLoopQ, e2]
  simp only [e3, trace_done_bind, List.length_append]
  rw [trace_partitionLoopQ_eq p en _ _ _ s1 (le_refl _) (by omega) q1]
  omega

theorem trace_quickselectLoopQ_bound [StrictLT R] (k : ℕ) :
    ∀ (fuel st en : ℕ) (higher : ℤ) (s : QState R β γ), st ≤ k → k < en → QOk en s →
      higher ≠ (k : ℤ) + 1 →
      ((quickselectLoopQ k fuel st en higher s).trace lessThan).length ≤ (en - st) * (en - st - 1) ∧
      ((∃ m x y, st ≤ m ∧ m < en ∧ s.data[m]? = some x ∧ s.data[k]? = some y ∧ y < x) →
        ((quickselectLoopQ k fuel st en higher s).trace lessThan).length ≤ (en - st - 1) ^ 2) := by
  intro fuel
  induction fuel with
  | zero => intros; simp [quickselectLoopQ]
  | succ fuel ih =>
    intro st en higher s h1 h2 h3 h4
    obtain ⟨p, s1, s2, s3, h, e0, hpk, e1, q1, e2, e3, q3, a1, a2, v3, v4, _, hlt⟩ :=
      quickselect_pass k st en s h1 h2 h3
    rw [trace_quickselectLoopQ_pass k st en s s1 s2 s3 p h fuel higher h4 e0 e1 q1 (by omega) e2 e3]
    obtain ⟨w, hw⟩ : ∃ w, en = st + (w + 1) := ⟨en - st - 1, by omega⟩
    have hw' : en - st = w + 1 := by omega
    have hflag : (∃ m x y, st ≤ m ∧ m < en ∧ s.data[m]? = some x ∧ s.data[k]? = some y ∧ y < x) →
        h < en := by
      rintro ⟨m, x, y, b, c, d, e, f⟩
      rw [hpk] at e
      cases e
      exact hlt ⟨m, x, b, c, d, f⟩
    rw [hw']
    simp only [Nat.add_sub_cancel]
    -- the passes after this one
    have rest : ((if k ≤ h - 1 then quickselectLoopQ k fuel st h h s3
        else quickselectLoopQ k fuel h en h s3).trace lessThan).length ≤
          if h < en then w * (w - 1) else w ^ 2 := by
      have mono : ∀ a, a ≤ w → a * (a - 1) ≤ w * (w - 1) := fun a ha =>
        Nat.mul_le_mul ha (by omega)
      by_cases hc : k ≤ h - 1
      · rw [if_pos hc]
        by_cases hdone : k + 1 = h
        · have : (quickselectLoopQ k fuel st h h s3).trace lessThan = [] := by
            cases fuel with
            | zero => rfl
            | succ f => rw [quickselectLoopQ, if_pos (by omega)]; rfl
          rw [this]
          exact Nat.zero_le _
        · have hk3 : k < s3.data.length := by have := q3.1; omega
          obtain ⟨i1, i2⟩ := ih st h h s3 h1 (by omega) (q3.mono a2) (by omega)
          by_cases hen : h < en
          · rw [if_pos hen]
            exact i1.trans (mono _ (by omega))
          · rw [if_neg hen]
            have hhe : h = en := by omega
            subst hhe
            rw [hw'] at i2
            exact i2 ⟨h - 1, p, s3.data[k], by omega, by omega, v3, List.getElem?_eq_getElem hk3,
              v4 k _ h1 (by omega) (List.getElem?_eq_getElem hk3)⟩
      · rw [if_neg hc]
        have hen : h < en := by omega
        rw [if_pos hen]
        obtain ⟨i1, _⟩ := ih h en h s3 (by omega) h2 q3 (by omega)
        exact i1.trans (mono _ (by omega))
    have hsq : w + w * (w - 1) = w ^ 2 := by
      cases w with
      | zero => rfl
      | succ w => simp only [Nat.add_sub_cancel]; ring
    constructor
    · by_cases hen : h < en
      · rw [if_pos hen] at rest
        calc _ ≤ w + w * (w - 1) := Nat.add_le_add_left rest w
          _ = w ^ 2 := hsq
          _ ≤ (w + 1) * w := by rw [sq]; exact Nat.mul_le_mul_right _ (Nat.le_succ _)
      · rw [if_neg hen] at rest
        calc _ ≤ w + w ^ 2 := Nat.add_le_add_left rest w
          _ = (w + 1) * w := by ring
    · intro hf
      rw [if_pos (hflag hf)] at rest
      calc _ ≤ w + w * (w - 1) := Nat.add_le_add_left rest w
        _ = w ^ 2 := hsq

/-- The comparisons for entries none of which is less than another. -/
theorem trace_quickselectLoopQ_equal [StrictLT R] (k : ℕ) :
    ∀ (j fuel st en : ℕ) (higher : ℤ) (s : QState R β γ), k = st + j → k < en → QOk en s →
      higher ≠ (k : ℤ) + 1 → j + 1 ≤ fuel →
      (∀ m m' x x', st ≤ m → m < en → st ≤ m' → m' < en → s.data[m]? = some x →
        s.data[m']? = some x' → ¬ x < x') →
      ((quickselectLoopQ k fuel st en higher s).trace lessThan).length =
        ((List.range (j + 1)).map fun i => en - st - 1 - i).sum := by
  intro j
  induction j with
  | zero =>
    intro fuel st en higher s hk h2 h3 h4 h5 h6
    obtain ⟨fuel, rfl⟩ : ∃ f, fuel = f + 1 := ⟨fuel - 1, by omega⟩
    obtain ⟨p, s1, s2, s3, h, e0, hpk, e1, q1, e2, e3, q3, a1, a2, v3, v4, hin, _⟩ :=
      quickselect_pass k st en s (by omega) h2 h3
    rw [trace_quickselectLoopQ_pass k st en s s1 s2 s3 p h fuel higher h4 e0 e1 q1 (by omega) e2 e3]
    have hh : h = st + 1 := by
      by_contra hne
      have hst : st < s3.data.length := by have := q3.1; omega
      obtain ⟨x, hx⟩ : ∃ x, s3.data[st]? = some x := ⟨_, List.getElem?_eq_getElem hst⟩
      obtain ⟨m', b1, b2, b3⟩ := hin st x (le_refl _) (by omega) hx
      exact h6 m' k x p b1 b2 (by omega) h2 b3 hpk (v4 st x (le_refl _) (by omega) hx)
    rw [if_pos (by omega)]
    have : (quickselectLoopQ k fuel st h h s3).trace lessThan = [] := by
      cases fuel with
      | zero => rfl
      | succ f => rw [quickselectLoopQ, if_pos (by omega)]; rfl
    rw [this]
    simp
  | succ j ih =>
    intro fuel st en higher s hk h2 h3 h4 h5 h6
    obtain ⟨fuel, rfl⟩ : ∃ f, fuel = f + 1 := ⟨fuel - 1, by omega⟩
    obtain ⟨p, s1, s2, s3, h, e0, hpk, e1, q1, e2, e3, q3, a1, a2, v3, v4, hin, _⟩ :=
      quickselect_pass k st en s (by omega) h2 h3
    rw [trace_quickselectLoopQ_pass k st en s s1 s2 s3 p h fuel higher h4 e0 e1 q1 (by omega) e2 e3]
    have hh : h = st + 1 := by
      by_contra hne
      have hst : st < s3.data.length := by have := q3.1; omega
      obtain ⟨x, hx⟩ : ∃ x, s3.data[st]? = some x := ⟨_, List.getElem?_eq_getElem hst⟩
      obtain ⟨m', b1, b2, b3⟩ := hin st x (le_refl _) (by omega) hx
      exact h6 m' k x p b1 b2 (by omega) h2 b3 hpk (v4 st x (le_refl _) (by omega) hx)
    subst hh
    rw [if_neg (by omega), ih fuel (st + 1) en _ s3 (by omega) h2 q3 (by omega) (by omega) (by
      intro m m' x x' b1 b2 b3 b4 b5 b6
      obtain ⟨n, c1, c2, c3⟩ := hin m x (by omega) b2 b5
      obtain ⟨n', c1', c2', c3'⟩ := hin m' x' (by omega) b4 b6
      exact h6 n n' x x' c1 c2 c1' c2' c3 c3')]
    rw [List.range_succ_eq_map (n := j + 1), List.map_cons, List.sum_cons, List.map_map]
    congr 1
    refine congrArg List.sum (List.map_congr_left fun i _ => ?_)
    simp only [Function.comp]
    omega

/-! ## Construction of trees -/

theorem trace_partitionQ_le (a : VPArray T R) (s e : ℕ) :
    ((a.partitionQ (s + 1) e (vpMid s e)).trace lessThan).length ≤ 2 * (e - s) ^ 2 := by
  rw [VPArray.partitionQ, trace_bind_quiet (fun _ => rfl), quickselectQ]
  split
  · exact Nat.zero_le _
  · rename_i hk
    obtain ⟨w, hw⟩ : ∃ w, e = s + 1 + (w + 1) := ⟨e - s - 2, by unfold vpMid at hk; omega⟩
    refine (trace_quickselectLoopQ_le (vpMid s e) (w + 1) _ _ _ _ _ (by omega) (by omega)).trans ?_
    have h1 : e - (s + 1) = w + 1 := by omega
    have h2 : e - s = w + 2 := by omega
    rw [h1, h2, Nat.add_sub_cancel]
    nlinarith

theorem square_split {n a b : ℕ} (hab : a + b + 1 ≤ n) (ha : 2 * a ≤ n + 1) (hb : 2 * b ≤ n + 1) :
    2 * n ^ 2 + 4 * a ^ 2 + 4 * b ^ 2 ≤ 4 * n ^ 2 := by
  nlinarith [Nat.mul_le_mul_right a ha, Nat.mul_le_mul_right b hb,
    Nat.mul_le_mul_left (n + 1) hab]

theorem trace_flatBuildLoopQ [Zero R] (d : T → T → R) (ρ : ℕ → ℕ) (p : VPParams R)
    (hcap : 1 ≤ p.leafCapacity) :
    ∀ fuel s e rest (st : BuildState T R), ∃ l : List (R × R), l.length ≤ 4 * (e - s) ^ 2 ∧
      ((flatBuildLoopQ d ρ p fuel ((s, e) :: rest) st).trace lessThan = l ∨
        ∃ fuel' st', fuel' < fuel ∧
          (flatBuildLoopQ d ρ p fuel ((s, e) :: rest) st).trace lessThan =
            l ++ (flatBuildLoopQ d ρ p fuel' rest st').trace lessThan) := by
  intro fuel
  induction fuel using Nat.strong_induction_on with
  | _ fuel ih =>
    intro s e rest st
    cases fuel with
    | zero => exact ⟨[], Nat.zero_le _, .inl rfl⟩
    | succ fuel =>
      simp only [flatBuildLoopQ, lift_eq]
      cases h1 : update d ρ p.pivoting s e st with
      | error _ => exact ⟨[], Nat.zero_le _, .inl rfl⟩
      | ok st1 =>
        simp only [trace_done_bind]
        have u1 := trace_partitionQ_le st1.arr s e
        have ub : ((st1.arr.partitionQ (s + 1) e (vpMid s e)).trace lessThan).length ≤
          4 * (e - s) ^ 2 := by omega
        rw [trace_bind, answer_partitionQ]
        set u := (st1.arr.partitionQ (s + 1) e (vpMid s e)).trace lessThan with hu
        cases h2 : st1.arr.partition (s + 1) e (vpMid s e) with
        | error _ => exact ⟨u, ub, .inl (by simp)⟩
        | ok a2 =>
          simp only
          cases h3 : a2.getDistance (vpMid s e) with
          | error _ => exact ⟨u, ub, .inl (by simp)⟩
          | ok r =>
            simp only [trace_done_bind]
            by_cases hc : e - s > 2 * p.leafCapacity ∧ p.leafRadius < r
            · rw [if_pos hc]
              cases h4 : a2.setDistance s r with
              | error _ => exact ⟨u, ub, .inl (by simp)⟩
              | ok a3 =>
                simp only [trace_done_bind]
                cases h5 : a3.setTerminal s false with
                | error _ => exact ⟨u, ub, .inl (by simp)⟩
                | ok a4 =>
                  simp only [trace_done_bind]
                  have hb := square_split (n := e - s) (a := vpMid s e - (s + 1))
                    (b := e - vpMid s e) (by unfold vpMid; omega) (by unfold vpMid; omega)
                    (by unfold vpMid; omega)
                  obtain ⟨l1, b1, k1⟩ := ih fuel (Nat.lt_succ_self _) (s + 1) (vpMid s e)
                    ((vpMid s e, e) :: rest) ⟨a4, st1.draws⟩
                  rcases k1 with k1 | ⟨f1, st5, hf1, k1⟩
                  · exact ⟨u ++ l1, by rw [List.length_append]; omega, .inl (by rw [k1])⟩
                  · obtain ⟨l2, b2, k2⟩ := ih f1 (by omega) (vpMid s e) e rest st5
                    refine ⟨u ++ (l1 ++ l2), by simp only [List.length_append]; omega, ?_⟩
                    rcases k2 with k2 | ⟨f2, st6, hf2, k2⟩
                    · left; rw [k1, k2]
                    · right
                      exact ⟨f2, st6, by omega, by rw [k1, k2]; simp only [List.append_assoc]⟩
            · rw [if_neg hc]
              cases h4 : a2.setDistance s r with
              | error _ => exact ⟨u, ub, .inl (by simp)⟩
              | ok a3 =>
                simp only [trace_done_bind]
                cases h5 : a3.setTerminal s true with
                | error _ => exact ⟨u, ub, .inl (by simp)⟩
                | ok a4 => exact ⟨u, ub, .inr ⟨fuel, ⟨a4, st1.draws⟩, Nat.lt_succ_self _, rfl⟩⟩

theorem trace_flatBuildQ_le [Zero R] (d : T → T → R) (ρ : ℕ → ℕ) (p : VPParams R)
    (hcap : 1 ≤ p.leafCapacity) (X : List T) :
    ((flatBuildQ d ρ p X).trace lessThan).length ≤ 4 * X.length ^ 2 := by
  unfold flatBuildQ
  simp only
  split
  · rw [trace_bind_quiet (fun _ => rfl)]
    obtain ⟨l, b, k⟩ := trace_flatBuildLoopQ d ρ p hcap
      (2 * (flatInit X : VPArray T R).size + 2) 0 (flatInit X : VPArray T R).size []
      ⟨flatInit X, 0⟩
    rcases k with k | ⟨f, st', _, k⟩
    · rw [k]; exact b
    · have hnil : (flatBuildLoopQ d ρ p f [] st').trace lessThan = [] := by cases f <;> rfl
      rw [k, hnil, List.append_nil]
      exact b
  · exact Nat.zero_le _

theorem trace_hierBuildRecQ [Zero R] [LE R] [DecidableLE R] (d : T → T → R) (ρ : ℕ → ℕ)
    (p : VPParams R) (hcap : 1 ≤ p.leafCapacity) :
    ∀ fuel s e (st : BuildState T R),
      ((hierBuildRecQ d ρ p fuel s e st).trace lessThan).length ≤ 4 * (e - s) ^ 2 := by
  intro fuel
  induction fuel with
  | zero => intros; exact Nat.zero_le _
  | succ fuel ih =>
    intro s e st
    unfold hierBuildRecQ
    split
    · exact Nat.zero_le _
    · rename_i hlt
      simp only [lift_eq]
      cases h1 : update d ρ p.pivoting s e st with
      | error _ => exact Nat.zero_le _
      | ok st1 =>
        simp only [trace_done_bind]
        cases h0 : st1.arr.getPoint s with
        | error _ => exact Nat.zero_le _
        | ok v =>
          simp only [trace_done_bind]
          have u1 := trace_partitionQ_le st1.arr s e
          rw [trace_bind, answer_partitionQ, List.length_append]
          cases h2 : st1.arr.partition (s + 1) e (vpMid s e) with
          | error _ => simp only [List.length_nil]; omega
          | ok a2 =>
            simp only
            cases h3 : a2.getDistance (vpMid s e) with
            | error _ => simp only [trace_error_bind, List.length_nil]; omega
            | ok r =>
              simp only [trace_done_bind]
              cases h4 : a2.setDistance s r with
              | error _ => simp only [trace_error_bind, List.length_nil]; omega
              | ok a3 =>
                simp only [trace_done_bind]
                by_cases hr : r ≤ p.leafRadius
                · simp only [hr, if_true, pure_trace, List.length_nil]; omega
                · simp only [hr, if_false]
                  have hb := square_split (n := e - s) (a := vpMid s e - (s + 1))
                    (b := e - vpMid s e) (by unfold vpMid; omega) (by unfold vpMid; omega)
                    (by unfold vpMid; omega)
                  have b1 := ih (s + 1) (vpMid s e) ⟨a3, st1.draws⟩
                  rw [trace_bind, answer_hierBuildRecQ, List.length_append]
                  cases h5 : hierBuildRec d ρ p fuel (s + 1) (vpMid s e) ⟨a3, st1.draws⟩ with
                  | error _ => simp only [List.length_nil]; omega
                  | ok o5 =>
                    obtain ⟨t5, st5⟩ := o5
                    simp only
                    have b2 := ih (vpMid s e) e st5
                    rw [trace_bind_quiet (fun _ => rfl)]
                    omega

theorem trace_hierBuildQ_le [Zero R] [LE R] [DecidableLE R] (d : T → T → R) (ρ : ℕ → ℕ)
    (p : VPParams R) (hcap : 1 ≤ p.leafCapacity) (X : List T) :
    ((hierBuildQ d ρ p X).trace lessThan).length ≤ 4 * X.length ^ 2 := by
  unfold hierBuildQ
  simp only
  split
  · rw [trace_bind_quiet (fun _ => rfl)]
    have := trace_hierBuildRecQ d ρ p hcap ((hierInit X : VPArray T R).size + 1) 0
      (hierInit X : VPArray T R).size ⟨hierInit X, 0⟩
    exact this
  · exact Nat.zero_le _

theorem sum_down (w : ℕ) : ∀ q, q ≤ w + 1 →
    2 * ((List.range q).map fun i => w - i).sum + q * (q - 1) = 2 * (q * w) := by
  intro q
  induction q with
  | zero => intro _; simp
  | succ q ih =>
    intro hq
    rw [List.range_succ, List.map_append, List.sum_append]
    have := ih (by omega)
    simp only [List.map_cons, List.map_nil, List.sum_cons, List.sum_nil, Nat.add_zero,
      Nat.add_sub_cancel]
    obtain ⟨r, rfl⟩ : ∃ r, w = q + r := ⟨w - q, by omega⟩
    rw [Nat.add_sub_cancel_left]
    cases q with
    | zero => simp at this ⊢
    | succ q =>
      simp only [Nat.add_sub_cancel] at this
      nlinarith

/-- The comparisons of the first partition of `n` rows at equal distances. -/
theorem first_partition [Zero R] [LE R] [DecidableLE R] [StrictLT R] (d : T → T → R) (ρ : ℕ → ℕ) (pv : String) (c : R)
    (X : List T) (hd : ∀ x ∈ X, ∀ y ∈ X, d x y = c) (a : VPArray T R) (ha : a.WF)
    (hX : a.dataset = X) (hne : X ≠ []) :
    ∃ st1, update d ρ pv 0 X.length ⟨a, 0⟩ = .ok st1 ∧ st1.arr.WF ∧ st1.arr.dataset = X ∧
      X.length * (X.length - 2) ≤
        4 * ((st1.arr.partitionQ 1 X.length (vpMid 0 X.length)).trace lessThan).length := by
  have hpos : 0 < X.length := List.length_pos_iff.mpr hne
  obtain ⟨st1, v, e1, s1, p1, d1⟩ := update_ok d ρ pv ⟨a, 0⟩ ha (s := 0) (e := X.length)
    (by simpa [hX] using hpos) (by simp [hX])
  have hdata : st1.arr.dataset = X := by rw [s1.data]; exact hX
  refine ⟨st1, e1, s1.wf, hdata, ?_⟩
  rw [VPArray.partitionQ, trace_bind_quiet (fun _ => rfl), quickselectQ]
  by_cases h2 : X.length ≤ 2
  · have : X.length * (X.length - 2) = 0 := by
      rw [show X.length - 2 = 0 by omega, Nat.mul_zero]
    omega
  · have hmid : vpMid 0 X.length = X.length / 2 := by simp [vpMid]
    rw [if_neg (by rw [hmid]; omega)]
    have hq : QOk X.length st1.arr.rows := s1.wf.qok (by rw [hdata])
    have hin : ∀ m, 1 ≤ m → m < X.length → ∀ x, st1.arr.rows.data[m]? = some x → x = c := by
      intro m b1 b2 x hx
      obtain ⟨y, hy1, hy2⟩ := s1.wf.getPoint (i := m) (by rw [hdata]; exact b2)
      have := d1 m y (by omega) b2 hy2
      have e : st1.arr.distances[m]? = some x := hx
      rw [this] at e
      cases e
      have hv : v ∈ X := by
        rw [← hdata]; exact st1.arr.pt_mem p1
      have hy : y ∈ X := by
        rw [← hdata]; exact st1.arr.pt_mem hy2
      exact hd v hv y hy
    rw [trace_quickselectLoopQ_equal (vpMid 0 X.length) (X.length / 2 - 1) _ 1 X.length (-1)
      st1.arr.rows (by rw [hmid]; omega) (by rw [hmid]; omega) hq (by omega) (by omega) (by
        intro m m' x x' b1 b2 b3 b4 b5 b6
        rw [hin m b1 b2 x b5, hin m' b3 b4 x' b6]
        exact StrictLT.irrefl _)]
    have hs := sum_down (X.length - 1 - 1) (X.length / 2 - 1 + 1) (by omega)
    obtain ⟨q, hq | hq⟩ : ∃ q, X.length = 2 * q + 2 ∨ X.length = 2 * q + 3 :=
      ⟨(X.length - 2) / 2, by omega⟩
    · have e1 : X.length / 2 - 1 + 1 = q + 1 := by omega
      rw [e1] at hs ⊢
      rw [hq] at hs ⊢
      rw [show 2 * q + 2 - 1 - 1 = 2 * q by omega] at hs ⊢
      simp only [Nat.add_sub_cancel] at hs ⊢
      nlinarith
    · have e1 : X.length / 2 - 1 + 1 = q + 1 := by omega
      rw [e1] at hs ⊢
      rw [hq] at hs ⊢
      rw [show 2 * q + 3 - 1 - 1 = 2 * q + 1 by omega] at hs ⊢
      rw [show 2 * q + 3 - 2 = 2 * q + 1 by omega]
      simp only [Nat.add_sub_cancel] at hs
      nlinarith

theorem trace_flatBuildQ_ge [Zero R] [LE R] [DecidableLE R] [StrictLT R] (d : T → T → R)
    (ρ : ℕ → ℕ) (p : VPParams R) (c : R) (X : List T) (hd : ∀ x ∈ X, ∀ y ∈ X, d x y = c) :
    X.length * (X.length - 2) ≤ 4 * ((flatBuildQ d ρ p X).trace lessThan).length := by
  by_cases hX : X = []
  · subst hX; exact Nat.zero_le _
  · have hpos : 0 < X.length := List.length_pos_iff.mpr hX
    have hsz : (flatInit X : VPArray T R).size = X.length := rfl
    unfold flatBuildQ
    simp only [hsz]
    rw [if_pos hpos, trace_bind_quiet (fun _ => rfl)]
    obtain ⟨st1, e1, _, _, hb⟩ := first_partition d ρ p.pivoting c X hd (flatInit X)
      (flatInit_wf X) rfl hX
    rw [flatBuildLoopQ]
    simp only [lift_eq, e1, trace_done_bind]
    rw [trace_bind, List.length_append]
    simp only [Nat.zero_add]
    omega

theorem trace_hierBuildQ_ge [Zero R] [LE R] [DecidableLE R] [StrictLT R] (d : T → T → R)
    (ρ : ℕ → ℕ) (p : VPParams R) (c : R) (X : List T) (hd : ∀ x ∈ X, ∀ y ∈ X, d x y = c)
    (hcap : p.leafCapacity < X.length) :
    X.length * (X.length - 2) ≤ 4 * ((hierBuildQ d ρ p X).trace lessThan).length := by
  have hpos : 0 < X.length := by omega
  have hX : X ≠ [] := List.length_pos_iff.mp hpos
  have hsz : (hierInit X : VPArray T R).size = X.length := rfl
  unfold hierBuildQ
  simp only [hsz]
  rw [if_pos hpos, trace_bind_quiet (fun _ => rfl)]
  obtain ⟨st1, e1, w1, d1, hb⟩ := first_partition d ρ p.pivoting c X hd (hierInit X)
    (hierInit_wf X) rfl hX
  obtain ⟨v, ev, _⟩ := w1.getPoint (i := 0) (by rw [d1]; exact hpos)
  rw [hierBuildRecQ, if_neg (by omega)]
  simp only [lift_eq, e1, ev, trace_done_bind]
  rw [trace_bind, List.length_append]
  simp only [Nat.zero_add]
  omega

end Verif

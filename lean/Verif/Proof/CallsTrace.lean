import Verif.Proof.Calls
import Verif.Spec.Calls

set_option autoImplicit false
set_option linter.unusedSectionVars false

namespace Verif

variable {T R α β : Type}

open Calls VPArray

theorem CallsWithin.nil (X : List T) : CallsWithin X [] := fun _ h => nomatch h

theorem CallsWithin.cons {X : List T} {x y : T} {l : List (T × T)} (hx : x ∈ X) (hy : y ∈ X)
    (h : CallsWithin X l) : CallsWithin X ((x, y) :: l) := by
  intro c hc
  rcases List.mem_cons.mp hc with rfl | hc
  · exact ⟨hx, hy⟩
  · exact h c hc

theorem CallsWithin.append {X : List T} {l l' : List (T × T)} (h : CallsWithin X l)
    (h' : CallsWithin X l') : CallsWithin X (l ++ l') := by
  intro c hc
  rcases List.mem_append.mp hc with hc | hc
  · exact h c hc
  · exact h' c hc

/-! ## The dataset is not changed by the construction -/

theorem getPoint_mem {a : VPArray T R} {i : ℕ} {x : T} (h : a.getPoint i = .ok x) :
    x ∈ a.dataset := by
  unfold VPArray.getPoint at h
  obtain ⟨j, _, h⟩ := bind_eq_ok.mp h
  exact List.mem_of_getElem? (getItem_eq_ok.mp h)

theorem swap_dataset {a a' : VPArray T R} {i j : ℕ} (h : a.swap i j = .ok a') :
    a'.dataset = a.dataset := by
  unfold VPArray.swap at h
  obtain ⟨q, _, h⟩ := bind_eq_ok.mp h
  cases h; rfl

theorem setDistance_dataset {a a' : VPArray T R} {i : ℕ} {r : R}
    (h : a.setDistance i r = .ok a') : a'.dataset = a.dataset := by
  unfold VPArray.setDistance at h
  obtain ⟨q, _, h⟩ := bind_eq_ok.mp h
  cases h; rfl

theorem setTerminal_dataset {a a' : VPArray T R} {i : ℕ} {b : Bool}
    (h : a.setTerminal i b = .ok a') : a'.dataset = a.dataset := by
  unfold VPArray.setTerminal at h
  split at h
  · cases h
  · obtain ⟨q, _, h⟩ := bind_eq_ok.mp h
    cases h; rfl

theorem writeFlag_dataset {a a' : VPArray T R} {i : ℕ} {f : Option Bool}
    (h : writeFlag a i f = .ok a') : a'.dataset = a.dataset := by
  unfold writeFlag at h
  split at h
  · exact setTerminal_dataset h
  · cases h; rfl

section build
variable [LT R] [DecidableLT R] [Zero R]

theorem partition_dataset {a a' : VPArray T R} {s e k : ℕ} (h : a.partition s e k = .ok a') :
    a'.dataset = a.dataset := by
  unfold VPArray.partition at h
  obtain ⟨q, _, h⟩ := bind_eq_ok.mp h
  cases h; rfl

theorem pivot_dataset {d : T → T → R} {ρ : ℕ → ℕ} {pv : String} {s e : ℕ}
    {st st' : BuildState T R} (h : pivot d ρ pv s e st = .ok st') :
    st'.arr.dataset = st.arr.dataset := by
  unfold pivot at h
  split at h
  · unfold pivotingRandom at h
    split at h
    · cases h; rfl
    · simp only at h
      split at h
      · obtain ⟨a, h1, h⟩ := bind_eq_ok.mp h
        cases h; exact (swap_dataset h1 :)
      · cases h; rfl
  split at h
  · unfold pivotingFurthest at h
    split at h
    · cases h; rfl
    · obtain ⟨i, _, h⟩ := bind_eq_ok.mp h
      obtain ⟨j, _, h⟩ := bind_eq_ok.mp h
      split at h
      · obtain ⟨a, h1, h⟩ := bind_eq_ok.mp h
        cases h; exact (swap_dataset h1 :)
      · cases h; rfl
  · cases h; rfl

theorem updateLoop_dataset {d : T → T → R} {v : T} {f : Option Bool} :
    ∀ {cnt i : ℕ} {a a' : VPArray T R}, updateLoop d v f cnt i a = .ok a' →
      a'.dataset = a.dataset := by
  intro cnt
  induction cnt with
  | zero => intro i a a' h; cases h; rfl
  | succ cnt ih =>
    intro i a a' h
    unfold updateLoop at h
    obtain ⟨x, _, h⟩ := bind_eq_ok.mp h
    obtain ⟨a1, h1, h⟩ := bind_eq_ok.mp h
    obtain ⟨a2, h2, h⟩ := bind_eq_ok.mp h
    rw [ih h, writeFlag_dataset h2, setDistance_dataset h1]

theorem update_dataset {d : T → T → R} {ρ : ℕ → ℕ} {pv : String} {s e : ℕ}
    {st st' : BuildState T R} (h : update d ρ pv s e st = .ok st') :
    st'.arr.dataset = st.arr.dataset := by
  unfold update at h
  obtain ⟨st1, h1, h⟩ := bind_eq_ok.mp h
  obtain ⟨v, _, h⟩ := bind_eq_ok.mp h
  obtain ⟨f, _, h⟩ := bind_eq_ok.mp h
  obtain ⟨a, h2, h⟩ := bind_eq_ok.mp h
  cases h
  exact (updateLoop_dataset h2).trans (pivot_dataset h1)

/-! ## The calls of the construction -/

theorem trace_furthestLoopC (d : T → T → R) (a : VPArray T R) (x : T) (hx : x ∈ a.dataset) :
    ∀ cnt j f r, ((furthestLoopC a x cnt j f r).trace d).length ≤ cnt ∧
      CallsWithin a.dataset ((furthestLoopC a x cnt j f r).trace d) := by
  intro cnt
  induction cnt with
  | zero => intros; exact ⟨le_refl _, .nil _⟩
  | succ cnt ih =>
    intro j f r
    simp only [furthestLoopC, lift_eq]
    cases hp : a.getPoint j with
    | error e => exact ⟨Nat.zero_le _, .nil _⟩
    | ok y =>
      simp only [trace_done_bind, trace_metric_bind]
      split
      · obtain ⟨h1, h2⟩ := ih (j + 1) j (d x y)
        exact ⟨by simpa using h1, h2.cons hx (getPoint_mem hp)⟩
      · obtain ⟨h1, h2⟩ := ih (j + 1) f r
        exact ⟨by simpa using h1, h2.cons hx (getPoint_mem hp)⟩

theorem trace_furthestC (d : T → T → R) (a : VPArray T R) (s e i : ℕ) :
    ((furthestC a s e i).trace d).length ≤ e - s ∧
      CallsWithin a.dataset ((furthestC a s e i).trace d) := by
  simp only [furthestC, lift_eq]
  cases hp : a.getPoint i with
  | error e => exact ⟨Nat.zero_le _, .nil _⟩
  | ok y => exact trace_furthestLoopC d a y (getPoint_mem hp) _ _ _ _

/-- The calls that a range costs, for the choice of the vantage point and for the distances. -/
def callFactor (pv : String) : ℕ := if pv = "furthest" then 3 else 1

theorem trace_pivotC (d : T → T → R) (ρ : ℕ → ℕ) (pv : String) (s e : ℕ)
    (st : BuildState T R) :
    ((pivotC ρ pv s e st).trace d).length ≤ (callFactor pv - 1) * (e - s) ∧
      CallsWithin st.arr.dataset ((pivotC ρ pv s e st).trace d) := by
  unfold pivotC
  split
  · exact ⟨Nat.zero_le _, .nil _⟩
  split
  · rename_i hf
    have hff : callFactor pv - 1 = 2 := by rw [callFactor, if_pos hf]
    rw [hff]
    unfold pivotingFurthestC
    split
    · exact ⟨Nat.zero_le _, .nil _⟩
    · simp only
      set rnd := s + ρ st.draws % (e - s)
      obtain ⟨h1, h2⟩ := trace_furthestC d st.arr s e rnd
      rw [trace_bind]
      cases hi : (furthestC st.arr s e rnd).answer d with
      | error _ => simp only [List.append_nil]; exact ⟨by omega, h2⟩
      | ok i =>
        simp only
        obtain ⟨h3, h4⟩ := trace_furthestC d st.arr s e i
        rw [trace_bind]
        cases hj : (furthestC st.arr s e i).answer d with
        | error _ =>
          simp only [List.append_nil, List.length_append]; exact ⟨by omega, h2.append h4⟩
        | ok j =>
          have : ((if j > s then (do
              let arr ← liftM (st.arr.swap s j)
              pure { arr := arr, draws := st.draws + 1 } : Calls T R (BuildState T R))
              else pure { arr := st.arr, draws := st.draws + 1 }).trace d) = [] := by
            split
            · simp only [lift_eq]
              cases st.arr.swap s j <;> rfl
            · rfl
          simp only [this, List.append_nil, List.length_append]
          exact ⟨by omega, h2.append h4⟩
  · exact ⟨Nat.zero_le _, .nil _⟩

theorem trace_updateLoopC (d : T → T → R) (v : T) (f : Option Bool) :
    ∀ cnt i (a : VPArray T R), v ∈ a.dataset →
      ((updateLoopC v f cnt i a).trace d).length ≤ cnt ∧
      CallsWithin a.dataset ((updateLoopC v f cnt i a).trace d) := by
  intro cnt
  induction cnt with
  | zero => intros; exact ⟨le_refl _, .nil _⟩
  | succ cnt ih =>
    intro i a hv
    simp only [updateLoopC, lift_eq]
    cases hp : a.getPoint i with
    | error e => exact ⟨Nat.zero_le _, .nil _⟩
    | ok y =>
      have hy := getPoint_mem hp
      simp only [trace_done_bind, trace_metric_bind]
      cases h1 : a.setDistance i (d v y) with
      | error e => exact ⟨by simp, CallsWithin.cons hv hy (.nil _)⟩
      | ok a1 =>
        simp only [trace_done_bind]
        cases h2 : writeFlag a1 i f with
        | error e => exact ⟨by simp, CallsWithin.cons hv hy (.nil _)⟩
        | ok a2 =>
          have hd : a2.dataset = a.dataset := by
            rw [writeFlag_dataset h2, setDistance_dataset h1]
          obtain ⟨h3, h4⟩ := ih (i + 1) a2 (by rw [hd]; exact hv)
          rw [hd] at h4
          simp only [trace_done_bind]
          exact ⟨by simpa using h3, h4.cons hv hy⟩

theorem trace_updateC (d : T → T → R) (ρ : ℕ → ℕ) (pv : String) (s e : ℕ)
    (st : BuildState T R) :
    ((updateC ρ pv s e st).trace d).length ≤ callFactor pv * (e - s) ∧
      CallsWithin st.arr.dataset ((updateC ρ pv s e st).trace d) := by
  have hf : 1 ≤ callFactor pv := by unfold callFactor; split <;> omega
  have hm : (callFactor pv - 1) * (e - s) + (e - s) = callFactor pv * (e - s) := by
    rw [← Nat.succ_mul, Nat.succ_eq_add_one, Nat.sub_add_cancel hf]
  obtain ⟨h1, h2⟩ := trace_pivotC d ρ pv s e st
  unfold updateC
  rw [trace_bind, answer_pivotC]
  cases hp : pivot d ρ pv s e st with
  | error _ => simp only [List.append_nil]; exact ⟨by omega, h2⟩
  | ok st1 =>
    have hd := pivot_dataset hp
    simp only [lift_eq]
    cases hv : st1.arr.getPoint s with
    | error _ => simp only [trace_error_bind, List.append_nil]; exact ⟨by omega, h2⟩
    | ok v =>
      simp only [trace_done_bind]
      cases hfl : readFlag st1.arr s with
      | error _ => simp only [trace_error_bind, List.append_nil]; exact ⟨by omega, h2⟩
      | ok f =>
        simp only [trace_done_bind]
        obtain ⟨h3, h4⟩ := trace_updateLoopC d v f (e - (s + 1)) (s + 1) st1.arr (getPoint_mem hv)
        rw [hd] at h4
        rw [trace_bind_quiet (fun _ => rfl)]
        exact ⟨by rw [List.length_append]; omega, h2.append h4⟩

/-- The calls of a range and of the ranges into which it is split. -/
theorem budget_split {f n a b : ℕ} (hn : 2 ≤ n) (hab : a + b ≤ n) (ha : a ≤ (n + 1) / 2)
    (hb : b ≤ (n + 1) / 2) :
    f * n + f * (a * (Nat.clog 2 a + 1)) + f * (b * (Nat.clog 2 b + 1)) ≤
      f * (n * (Nat.clog 2 n + 1)) := by
  have hc : Nat.clog 2 n = Nat.clog 2 ((n + 1) / 2) + 1 := by
    rw [Nat.clog_of_two_le (by omega) hn]; rfl
  have h1 : Nat.clog 2 a + 1 ≤ Nat.clog 2 n := by
    rw [hc]; exact Nat.add_le_add_right (Nat.clog_mono_right 2 ha) 1
  have h2 : Nat.clog 2 b + 1 ≤ Nat.clog 2 n := by
    rw [hc]; exact Nat.add_le_add_right (Nat.clog_mono_right 2 hb) 1
  rw [← Nat.mul_add, ← Nat.mul_add]
  apply Nat.mul_le_mul_left
  calc n + a * (Nat.clog 2 a + 1) + b * (Nat.clog 2 b + 1)
      ≤ n + a * Nat.clog 2 n + b * Nat.clog 2 n := by
        gcongr
    _ = n + (a + b) * Nat.clog 2 n := by rw [Nat.add_mul, Nat.add_assoc]
    _ ≤ n + n * Nat.clog 2 n := by gcongr
    _ = n * (Nat.clog 2 n + 1) := by rw [Nat.mul_add, Nat.mul_one, Nat.add_comm]

theorem budget_one (f n : ℕ) : f * n ≤ f * (n * (Nat.clog 2 n + 1)) :=
  Nat.mul_le_mul_left _ (Nat.le_mul_of_pos_right _ (Nat.succ_pos _))

theorem buildBudget_eq (pv : String) (n : ℕ) :
    buildBudget pv n = callFactor pv * (n * (Nat.clog 2 n + 1)) := rfl

theorem trace_flatBuildLoopC (d : T → T → R) (ρ : ℕ → ℕ) (p : VPParams R)
    (hcap : 1 ≤ p.leafCapacity) :
    ∀ fuel s e rest (st : BuildState T R), ∃ l, l.length ≤ buildBudget p.pivoting (e - s) ∧
      CallsWithin st.arr.dataset l ∧
      ((flatBuildLoopC ρ p fuel ((s, e) :: rest) st).trace d = l ∨
        ∃ fuel' st', fuel' < fuel ∧ st'.arr.dataset = st.arr.dataset ∧
          (flatBuildLoopC ρ p fuel ((s, e) :: rest) st).trace d =
            l ++ (flatBuildLoopC ρ p fuel' rest st').trace d) := by
  intro fuel
  induction fuel using Nat.strong_induction_on with
  | _ fuel ih =>
    intro s e rest st
    cases fuel with
    | zero => exact ⟨[], Nat.zero_le _, .nil _, .inl rfl⟩
    | succ fuel =>
      obtain ⟨u1, u2⟩ := trace_updateC d ρ p.pivoting s e st
      have ub := u1.trans (budget_one (callFactor p.pivoting) (e - s))
      set u := (updateC ρ p.pivoting s e st).trace d with hu
      simp only [flatBuildLoopC, lift_eq]
      rw [trace_bind, answer_updateC, ← hu]
      cases h1 : update d ρ p.pivoting s e st with
      | error _ => exact ⟨u, ub, u2, .inl (by simp)⟩
      | ok st1 =>
        have d1 := update_dataset h1
        simp only
        cases h2 : st1.arr.partition (s + 1) e (vpMid s e) with
        | error _ => exact ⟨u, ub, u2, .inl (by simp)⟩
        | ok a2 =>
          have d2 := partition_dataset h2
          simp only [trace_done_bind]
          cases h3 : a2.getDistance (vpMid s e) with
          | error _ => exact ⟨u, ub, u2, .inl (by simp)⟩
          | ok r =>
            simp only [trace_done_bind]
            by_cases hc : e - s > 2 * p.leafCapacity ∧ p.leafRadius < r
            · rw [if_pos hc]
              cases h4 : a2.setDistance s r with
              | error _ => exact ⟨u, ub, u2, .inl (by simp)⟩
              | ok a3 =>
                have d3 := setDistance_dataset h4
                simp only [trace_done_bind]
                cases h5 : a3.setTerminal s false with
                | error _ => exact ⟨u, ub, u2, .inl (by simp)⟩
                | ok a4 =>
                  have d4 := setTerminal_dataset h5
                  have hd : a4.dataset = st.arr.dataset := by rw [d4, d3, d2, d1]
                  simp only [trace_done_bind]
                  have hb := budget_split (f := callFactor p.pivoting) (n := e - s)
                    (a := vpMid s e - (s + 1)) (b := e - vpMid s e) (by omega)
                    (by unfold vpMid; omega) (by unfold vpMid; omega) (by unfold vpMid; omega)
                  obtain ⟨l1, b1, w1, k1⟩ := ih fuel (Nat.lt_succ_self _) (s + 1) (vpMid s e)
                    ((vpMid s e, e) :: rest) ⟨a4, st1.draws⟩
                  rw [hd] at w1
                  rw [buildBudget_eq] at b1 ⊢
                  rcases k1 with k1 | ⟨f1, st5, hf1, d5, k1⟩
                  · exact ⟨u ++ l1, by rw [List.length_append]; omega, u2.append w1,
                      .inl (by rw [k1])⟩
                  · have hd5 : st5.arr.dataset = st.arr.dataset := d5.trans hd
                    obtain ⟨l2, b2, w2, k2⟩ := ih f1 (by omega) (vpMid s e) e rest st5
                    rw [hd5] at w2
                    rw [buildBudget_eq] at b2
                    refine ⟨u ++ (l1 ++ l2), by simp only [List.length_append]; omega,
                      u2.append (w1.append w2), ?_⟩
                    rcases k2 with k2 | ⟨f2, st6, hf2, d6, k2⟩
                    · left; rw [k1, k2]
                    · right
                      exact ⟨f2, st6, by omega, d6.trans hd5, by
                        rw [k1, k2]; simp only [List.append_assoc]⟩
            · rw [if_neg hc]
              cases h4 : a2.setDistance s r with
              | error _ => exact ⟨u, ub, u2, .inl (by simp)⟩
              | ok a3 =>
                have d3 := setDistance_dataset h4
                simp only [trace_done_bind]
                cases h5 : a3.setTerminal s true with
                | error _ => exact ⟨u, ub, u2, .inl (by simp)⟩
                | ok a4 =>
                  have d4 := setTerminal_dataset h5
                  have hd : a4.dataset = st.arr.dataset := by rw [d4, d3, d2, d1]
                  exact ⟨u, ub, u2, .inr ⟨fuel, ⟨a4, st1.draws⟩, Nat.lt_succ_self _, hd, rfl⟩⟩

theorem trace_flatBuildLoopC_nil (d : T → T → R) (ρ : ℕ → ℕ) (p : VPParams R) (fuel : ℕ)
    (st : BuildState T R) : (flatBuildLoopC ρ p fuel [] st).trace d = [] := by
  cases fuel <;> rfl

theorem trace_flatBuildC (d : T → T → R) (ρ : ℕ → ℕ) (p : VPParams R)
    (hcap : 1 ≤ p.leafCapacity) (X : List T) :
    ((flatBuildC ρ p X).trace d).length ≤ buildBudget p.pivoting X.length ∧
      CallsWithin X ((flatBuildC ρ p X).trace d) := by
  unfold flatBuildC
  simp only
  split
  · rw [trace_bind_quiet (fun _ => rfl)]
    obtain ⟨l, b, w, k⟩ := trace_flatBuildLoopC d ρ p hcap
      (2 * (flatInit X : VPArray T R).size + 2) 0 (flatInit X : VPArray T R).size []
      ⟨flatInit X, 0⟩
    rcases k with k | ⟨_, _, _, _, k⟩
    · rw [k]; exact ⟨b, w⟩
    · rw [k, trace_flatBuildLoopC_nil, List.append_nil]; exact ⟨b, w⟩
  · exact ⟨Nat.zero_le _, .nil _⟩

end build

section
variable [LE R] [LT R] [DecidableLE R] [DecidableLT R] [Zero R]

theorem hierBuildRec_dataset {d : T → T → R} {ρ : ℕ → ℕ} {p : VPParams R} :
    ∀ {fuel s e : ℕ} {st : BuildState T R} {t : VPNode T R} {st' : BuildState T R},
      hierBuildRec d ρ p fuel s e st = .ok (t, st') → st'.arr.dataset = st.arr.dataset := by
  intro fuel
  induction fuel with
  | zero => intro s e st t st' h; cases h
  | succ fuel ih =>
    intro s e st t st' h
    unfold hierBuildRec at h
    split at h
    · cases h; rfl
    · obtain ⟨st1, h1, h⟩ := bind_eq_ok.mp h
      obtain ⟨v, _, h⟩ := bind_eq_ok.mp h
      obtain ⟨a2, h2, h⟩ := bind_eq_ok.mp h
      obtain ⟨r, _, h⟩ := bind_eq_ok.mp h
      obtain ⟨a3, h3, h⟩ := bind_eq_ok.mp h
      have hd : a3.dataset = st.arr.dataset := by
        rw [setDistance_dataset h3, partition_dataset h2, update_dataset h1]
      split at h
      · cases h; exact hd
      · obtain ⟨⟨l, st4⟩, h4, h⟩ := bind_eq_ok.mp h
        obtain ⟨⟨rt, st5⟩, h5, h⟩ := bind_eq_ok.mp h
        cases h
        exact (ih h5).trans ((ih h4).trans hd)

theorem trace_hierBuildRecC (d : T → T → R) (ρ : ℕ → ℕ) (p : VPParams R)
    (hcap : 1 ≤ p.leafCapacity) :
    ∀ fuel s e (st : BuildState T R),
      ((hierBuildRecC ρ p fuel s e st).trace d).length ≤ buildBudget p.pivoting (e - s) ∧
      CallsWithin st.arr.dataset ((hierBuildRecC ρ p fuel s e st).trace d) := by
  intro fuel
  induction fuel with
  | zero => intros; exact ⟨Nat.zero_le _, .nil _⟩
  | succ fuel ih =>
    intro s e st
    unfold hierBuildRecC
    split
    · exact ⟨Nat.zero_le _, .nil _⟩
    · rename_i hlt
      obtain ⟨u1, u2⟩ := trace_updateC d ρ p.pivoting s e st
      have ub := u1.trans (budget_one (callFactor p.pivoting) (e - s))
      rw [buildBudget_eq]
      set u := (updateC ρ p.pivoting s e st).trace d with hu
      simp only [lift_eq]
      rw [trace_bind, answer_updateC, ← hu]
      cases h1 : update d ρ p.pivoting s e st with
      | error _ => simp only [List.append_nil]; exact ⟨ub, u2⟩
      | ok st1 =>
        have d1 := update_dataset h1
        simp only
        cases h0 : st1.arr.getPoint s with
        | error _ => simp only [trace_error_bind, List.append_nil]; exact ⟨ub, u2⟩
        | ok v =>
          simp only [trace_done_bind]
          cases h2 : st1.arr.partition (s + 1) e (vpMid s e) with
          | error _ => simp only [trace_error_bind, List.append_nil]; exact ⟨ub, u2⟩
          | ok a2 =>
            have d2 := partition_dataset h2
            simp only [trace_done_bind]
            cases h3 : a2.getDistance (vpMid s e) with
            | error _ => simp only [trace_error_bind, List.append_nil]; exact ⟨ub, u2⟩
            | ok r =>
              simp only [trace_done_bind]
              cases h4 : a2.setDistance s r with
              | error _ => simp only [trace_error_bind, List.append_nil]; exact ⟨ub, u2⟩
              | ok a3 =>
                have d3 := setDistance_dataset h4
                have hd : a3.dataset = st.arr.dataset := by rw [d3, d2, d1]
                simp only [trace_done_bind]
                by_cases hr : r ≤ p.leafRadius
                · simp only [hr, if_true, pure_trace, List.append_nil]; exact ⟨ub, u2⟩
                · simp only [hr, if_false]
                  have hb := budget_split (f := callFactor p.pivoting) (n := e - s)
                    (a := vpMid s e - (s + 1)) (b := e - vpMid s e) (by omega)
                    (by unfold vpMid; omega) (by unfold vpMid; omega) (by unfold vpMid; omega)
                  obtain ⟨b1, w1⟩ := ih (s + 1) (vpMid s e) ⟨a3, st1.draws⟩
                  rw [buildBudget_eq] at b1
                  rw [hd] at w1
                  set l1 := (hierBuildRecC ρ p fuel (s + 1) (vpMid s e)
                    ⟨a3, st1.draws⟩).trace d with hl1
                  rw [trace_bind, answer_hierBuildRecC, ← hl1]
                  cases h5 : hierBuildRec d ρ p fuel (s + 1) (vpMid s e) ⟨a3, st1.draws⟩ with
                  | error _ =>
                    simp only [List.append_nil, List.length_append]
                    exact ⟨by omega, u2.append w1⟩
                  | ok o5 =>
                    obtain ⟨t5, st5⟩ := o5
                    have hd5 : st5.arr.dataset = st.arr.dataset :=
                      (hierBuildRec_dataset h5).trans hd
                    simp only
                    obtain ⟨b2, w2⟩ := ih (vpMid s e) e st5
                    rw [buildBudget_eq] at b2
                    rw [hd5] at w2
                    set l2 := (hierBuildRecC ρ p fuel (vpMid s e) e st5).trace d with hl2
                    rw [trace_bind_quiet (fun _ => rfl), ← hl2]
                    exact ⟨by simp only [List.length_append]; omega,
                      u2.append (w1.append w2)⟩

theorem trace_hierBuildC (d : T → T → R) (ρ : ℕ → ℕ) (p : VPParams R)
    (hcap : 1 ≤ p.leafCapacity) (X : List T) :
    ((hierBuildC ρ p X).trace d).length ≤ buildBudget p.pivoting X.length ∧
      CallsWithin X ((hierBuildC ρ p X).trace d) := by
  unfold hierBuildC
  simp only
  split
  · rw [trace_bind_quiet (fun _ => rfl)]
    exact trace_hierBuildRecC d ρ p hcap _ 0 _ ⟨hierInit X, 0⟩
  · exact ⟨Nat.zero_le _, .nil _⟩

end

end Verif

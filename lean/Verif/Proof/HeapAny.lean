import Verif.Model.HeapAny
import Verif.Proof.Heap
import Mathlib.Data.Nat.Log
import Mathlib.Tactic.Linarith

set_option autoImplicit false
set_option linter.unusedSectionVars false

namespace Verif

variable {K V E α β : Type}

namespace HeapM

theorem pure_run (a : α) (s : HeapState K V) : (pure a : HeapM E K V α) s = (.ok a, s) := rfl

theorem bind_run (x : HeapM E K V α) (f : α → HeapM E K V β) (s : HeapState K V) :
    (x >>= f) s = match x s with
      | (.ok a, s) => f a s
      | (.error e, s) => (.error e, s) := rfl

theorem bind_run_ok {x : HeapM E K V α} {f : α → HeapM E K V β} {s s' : HeapState K V} {a : α}
    (h : x s = (.ok a, s')) : (x >>= f) s = f a s' := by rw [bind_run, h]

theorem bind_run_error {x : HeapM E K V α} {f : α → HeapM E K V β} {s s' : HeapState K V}
    {e : HeapExc E} (h : x s = (.error e, s')) : (x >>= f) s = (.error e, s') := by rw [bind_run, h]

theorem items_bind (f : List (K × V) → HeapM E K V β) (s : HeapState K V) :
    (items >>= f) s = f s.items s := rfl

theorem put_bind (l : List (K × V)) (f : Unit → HeapM E K V β) (s : HeapState K V) :
    (put l >>= f) s = f () ⟨l, s.count⟩ := rfl

theorem lift_ok_bind (a : α) (f : α → HeapM E K V β) (s : HeapState K V) :
    (lift (.ok a) >>= f) s = f a s := rfl

theorem less_ok_bind {lt : ℕ → K → K → Except E Bool} {x y : K × V} {s : HeapState K V} {b : Bool}
    (h : lt s.count x.1 y.1 = .ok b) (f : Bool → HeapM E K V β) :
    (less lt x y >>= f) s = f b ⟨s.items, s.count + 1⟩ := by
  rw [bind_run, less, h]; rfl

theorem less_error_bind {lt : ℕ → K → K → Except E Bool} {x y : K × V} {s : HeapState K V} {e : E}
    (h : lt s.count x.1 y.1 = .error e) (f : Bool → HeapM E K V β) :
    (less lt x y >>= f) s = (.error (.compare e), ⟨s.items, s.count + 1⟩) := by
  rw [bind_run, less, h]; rfl

/-- The exception, if any, is one raised by a comparison numbered from `a` below `b`. -/
def Blames (lt : ℕ → K → K → Except E Bool) (a b : ℕ) (r : Except (HeapExc E) α) : Prop :=
  ∀ e, r = .error e → ∃ n x y e', a ≤ n ∧ n < b ∧ lt n x y = .error e' ∧ e = .compare e'

theorem Blames.ok (lt : ℕ → K → K → Except E Bool) (a b : ℕ) (x : α) :
    Blames lt a b (.ok x : Except (HeapExc E) α) := by intro e h; cases h

theorem Blames.mono {lt : ℕ → K → K → Except E Bool} {a b a' b' : ℕ} {r : Except (HeapExc E) α}
    (h : Blames lt a b r) (h1 : a' ≤ a) (h2 : b ≤ b') : Blames lt a' b' r := by
  intro e he
  obtain ⟨n, x, y, e', q1, q2, q3, q4⟩ := h e he
  exact ⟨n, x, y, e', by omega, by omega, q3, q4⟩

variable (lt : ℕ → K → K → Except E Bool)

/-- One comparison: at most one more is counted, the list stays. -/
theorem less_cases (x y : K × V) (s : HeapState K V) :
    (∃ b, lt s.count x.1 y.1 = .ok b) ∨ ∃ e, lt s.count x.1 y.1 = .error e := by
  cases lt s.count x.1 y.1 with
  | ok b => exact .inl ⟨b, rfl⟩
  | error e => exact .inr ⟨e, rfl⟩

theorem Blames.compare {lt : ℕ → K → K → Except E Bool} {a b n : ℕ} {x y : K} {e : E}
    (h : lt n x y = .error e) (h1 : a ≤ n) (h2 : n < b) :
    Blames lt a b (.error (.compare e) : Except (HeapExc E) α) := by
  intro e' he
  cases he
  exact ⟨n, x, y, e, h1, h2, h, rfl⟩

theorem fixUp_run (i : ℕ) (s : HeapState K V) (hi : i < s.items.length) :
    ∃ r s', fixUp lt i s = (r, s') ∧ s'.count = s.count + 1 ∧ s'.items.Perm s.items ∧
      Blames lt s.count s'.count r ∧
      ∀ m, r = .ok m → m = i ∨ m = (i - 1) / 2 := by
  have hp : (i - 1) / 2 < s.items.length := by omega
  rw [fixUp, items_bind]
  simp only [heapParent_eq, getItem_lt hp, getItem_lt hi, lift_ok_bind]
  rcases less_cases lt s.items[(i - 1) / 2] s.items[i] s with ⟨b, hb⟩ | ⟨e, he⟩
  · rw [less_ok_bind hb]
    cases b with
    | false => exact ⟨_, _, rfl, rfl, .refl _, Blames.ok _ _ _ _, fun m h => .inl (by cases h; rfl)⟩
    | true =>
      obtain ⟨l', e1, p1, _⟩ := swapList_perm hi hp
      simp only [if_true, e1, lift_ok_bind, put_bind]
      exact ⟨_, _, rfl, rfl, p1, Blames.ok _ _ _ _, fun m h => .inr (by cases h; rfl)⟩
  · rw [less_error_bind he]
    exact ⟨_, _, rfl, rfl, .refl _, Blames.compare he (le_refl _) (Nat.lt_succ_self _),
      fun m h => by cases h⟩

theorem getLocalMax_run (i : ℕ) (s : HeapState K V) (hi : i < s.items.length ∨ s.items = []) :
    ∃ r c, getLocalMax lt i s = (r, ⟨s.items, c⟩) ∧ s.count ≤ c ∧
      c ≤ s.count + (if 2 * i + 1 < s.items.length then 2 else 0) ∧ Blames lt s.count c r ∧
      ∀ m, r = .ok m → m = i ∨ (i < m ∧ m < s.items.length ∧ (m - 1) / 2 = i) := by
  unfold getLocalMax heapLeft heapRight
  rw [items_bind]
  dsimp only
  by_cases h1 : 2 * i + 1 ≥ s.items.length
  · rw [if_pos h1]
    exact ⟨_, _, rfl, le_refl _, Nat.le_add_right _ _, Blames.ok _ _ _ _, fun m h => .inl (by cases h; rfl)⟩
  · have hl : 2 * i + 1 < s.items.length := by omega
    have hi' : i < s.items.length := by omega
    rw [if_neg h1, if_pos hl]
    by_cases h2 : 2 * i + 2 ≥ s.items.length
    · rw [if_pos h2]
      simp only [getItem_lt hl, getItem_lt hi', lift_ok_bind]
      rcases less_cases lt s.items[i] s.items[2 * i + 1] s with ⟨b, hb⟩ | ⟨e, he⟩
      · rw [less_ok_bind hb]
        cases b with
        | false =>
          exact ⟨_, _, rfl, by simp, by simp, Blames.ok _ _ _ _, fun m h => .inl (by cases h; rfl)⟩
        | true =>
          exact ⟨_, _, rfl, by simp, by simp, Blames.ok _ _ _ _, fun m h => .inr (by cases h; omega)⟩
      · rw [less_error_bind he]
        exact ⟨_, _, rfl, by simp, by simp, Blames.compare he (le_refl _) (Nat.lt_succ_self _),
          fun m h => by cases h⟩
    · have hr : 2 * i + 2 < s.items.length := by omega
      rw [if_neg h2]
      simp only [getItem_lt hl, getItem_lt hr, getItem_lt hi', lift_ok_bind]
      rcases less_cases lt s.items[2 * i + 1] s.items[2 * i + 2] s with ⟨b, hb⟩ | ⟨e, he⟩
      · rw [less_ok_bind hb]
        have hm : (if b then 2 * i + 2 else 2 * i + 1) < s.items.length := by
          cases b <;> simp <;> omega
        have hm2 : i < (if b then 2 * i + 2 else 2 * i + 1) ∧
            ((if b then 2 * i + 2 else 2 * i + 1) - 1) / 2 = i := by
          cases b <;> simp <;> omega
        simp only [getItem_lt hm, lift_ok_bind]
        rcases less_cases lt s.items[i] s.items[if b then 2 * i + 2 else 2 * i + 1]
          (⟨s.items, s.count + 1⟩ : HeapState K V) with ⟨b', hb'⟩ | ⟨e, he⟩
        · rw [less_ok_bind hb']
          cases b' with
          | false =>
            exact ⟨_, _, rfl, by simp [Nat.add_assoc], by simp, Blames.ok _ _ _ _,
              fun m h => .inl (by cases h; rfl)⟩
          | true =>
            exact ⟨_, _, rfl, by simp [Nat.add_assoc], by simp, Blames.ok _ _ _ _,
              fun m h => .inr (by cases h; exact ⟨hm2.1, hm, hm2.2⟩)⟩
        · rw [less_error_bind he]
          exact ⟨_, _, rfl, by simp [Nat.add_assoc], by simp,
            Blames.compare he (Nat.le_succ _) (Nat.lt_succ_self _), fun m h => by cases h⟩
      · rw [less_error_bind he]
        exact ⟨_, _, rfl, by simp, by simp, Blames.compare he (le_refl _) (Nat.lt_succ_self _),
          fun m h => by cases h⟩

theorem fixDown_run (i : ℕ) (s : HeapState K V) (hi : i < s.items.length ∨ s.items = []) :
    ∃ r s', fixDown lt i s = (r, s') ∧ s.count ≤ s'.count ∧
      s'.count ≤ s.count + (if 2 * i + 1 < s.items.length then 2 else 0) ∧
      s'.items.Perm s.items ∧ Blames lt s.count s'.count r ∧
      ∀ m, r = .ok m → m = i ∨ (i < m ∧ m < s.items.length ∧ (m - 1) / 2 = i) := by
  obtain ⟨r, c, e1, h1, h2, h3, h4⟩ := getLocalMax_run lt i s hi
  cases r with
  | error e =>
    exact ⟨_, _, bind_run_error e1, h1, h2, .refl _, fun e' he => h3 e' (by cases he; rfl),
      fun m h => by cases h⟩
  | ok m =>
    rw [fixDown, bind_run_ok e1]
    rcases h4 m rfl with rfl | ⟨q1, q2, q3⟩
    · simp only [lt_irrefl, if_false]
      exact ⟨_, _, rfl, h1, h2, .refl _, Blames.ok _ _ _ _, fun m' h => .inl (by cases h; rfl)⟩
    · simp only [q1, if_true]
      have hi' : i < s.items.length := by omega
      obtain ⟨l', e2, p2, _⟩ := swapList_perm hi' q2
      rw [items_bind]
      simp only [e2, lift_ok_bind, put_bind]
      exact ⟨_, _, rfl, h1, h2, p2, Blames.ok _ _ _ _, fun m' h => .inr (by cases h; exact ⟨q1, q2, q3⟩)⟩

theorem bubbleUpLoop_run : ∀ (fuel i : ℕ) (s : HeapState K V), i < s.items.length → i < fuel →
    ∃ r s', bubbleUpLoop lt fuel i s = (r, s') ∧ s.count ≤ s'.count ∧
      s'.count ≤ s.count + (Nat.log 2 (i + 1) + 1) ∧ s'.items.Perm s.items ∧
      Blames lt s.count s'.count r := by
  intro fuel
  induction fuel with
  | zero => intro i s _ h; omega
  | succ fuel ih =>
    intro i s hi hf
    rw [bubbleUpLoop]
    obtain ⟨r, s1, e1, h1, h2, h3, h4⟩ := fixUp_run lt i s hi
    cases r with
    | error e =>
      exact ⟨_, _, bind_run_error e1, by omega, by omega, h2, fun e' he => h3 e' (by cases he; rfl)⟩
    | ok m =>
      rw [bind_run_ok e1]
      by_cases hm : m = i
      · simp only [hm, if_true]
        exact ⟨_, _, rfl, by omega, by omega, h2, Blames.ok _ _ _ _⟩
      · simp only [hm, if_false]
        have hm' : m = (i - 1) / 2 := (h4 m rfl).resolve_left hm
        have hi0 : 0 < i := by omega
        obtain ⟨r', s2, e2, k1, k2, k3, k4⟩ := ih m s1 (by rw [h2.length_eq]; omega) (by omega)
        have hlog : Nat.log 2 (i + 1) = Nat.log 2 (m + 1) + 1 := by
          rw [Nat.log_of_one_lt_of_le (by omega) (by omega)]
          congr 2
          omega
        exact ⟨r', s2, e2, by omega, by omega, k3.trans h2, k4.mono (by omega) (le_refl _)⟩

theorem bubbleDownLoop_run : ∀ (fuel i : ℕ) (s : HeapState K V),
    (i < s.items.length ∨ (s.items = [] ∧ i = 0)) → s.items.length < fuel + i →
    ∃ r s', bubbleDownLoop lt fuel i s = (r, s') ∧ s.count ≤ s'.count ∧
      s'.count ≤ s.count + 2 * (Nat.log 2 s.items.length - Nat.log 2 (i + 1)) ∧
      s'.items.Perm s.items ∧ Blames lt s.count s'.count r := by
  intro fuel
  induction fuel with
  | zero => intro i s h1 h2; rcases h1 with h1 | ⟨h1, h3⟩ <;> simp_all <;> omega
  | succ fuel ih =>
    intro i s hi hf
    rw [bubbleDownLoop]
    obtain ⟨r, s1, e1, h1, h2, h3, h4, h5⟩ := fixDown_run lt i s
      (hi.imp id (fun h => h.1))
    have hstep : 2 * i + 1 < s.items.length →
        Nat.log 2 (i + 1) + 1 ≤ Nat.log 2 s.items.length := by
      intro h
      rw [← Nat.log_mul_base (by omega) (by omega)]
      exact Nat.log_mono_right (by omega)
    have h2' : s1.count ≤ s.count + 2 * (Nat.log 2 s.items.length - Nat.log 2 (i + 1)) := by
      split at h2
      · have := hstep (by assumption); omega
      · omega
    cases r with
    | error e =>
      exact ⟨_, _, bind_run_error e1, h1, h2', h3, fun e' he => h4 e' (by cases he; rfl)⟩
    | ok m =>
      rw [bind_run_ok e1]
      by_cases hm : i = m
      · simp only [hm, if_true]
        exact ⟨_, _, rfl, h1, by rw [← hm]; exact h2', h3, Blames.ok _ _ _ _⟩
      · simp only [hm, if_false]
        rcases h5 m rfl with h | ⟨q1, q2, q3⟩
        · exact absurd h.symm hm
        · have hlen := h3.length_eq
          obtain ⟨r', s2, e2, k1, k2, k3, k4⟩ := ih m s1 (.inl (by rw [hlen]; exact q2))
            (by rw [hlen]; omega)
          have hl : 2 * i + 1 < s.items.length := by omega
          have := hstep hl
          rw [if_pos hl] at h2
          have hlog : Nat.log 2 (m + 1) = Nat.log 2 (i + 1) + 1 := by
            rw [Nat.log_of_one_lt_of_le (by omega) (by omega)]
            congr 2
            omega
          have hlm : Nat.log 2 (m + 1) ≤ Nat.log 2 s.items.length :=
            Nat.log_mono_right (by omega)
          rw [hlen] at k2
          exact ⟨r', s2, e2, by omega, by omega, k3.trans h3, k4.mono (by omega) (le_refl _)⟩

theorem add_run (k : K) (v : V) (s : HeapState K V) :
    ∃ r s', add lt k v s = (r, s') ∧ s.count ≤ s'.count ∧
      s'.count ≤ s.count + (Nat.log 2 (s.items.length + 1) + 1) ∧
      s'.items.Perm ((k, v) :: s.items) ∧ Blames lt s.count s'.count r := by
  rw [add, items_bind]
  simp only [put_bind, bubbleUp]
  rw [items_bind]
  obtain ⟨r, s', e, h1, h2, h3, h4⟩ := bubbleUpLoop_run lt
    ((s.items ++ [(k, v)]).length + 1) ((s.items ++ [(k, v)]).length - 1)
    ⟨s.items ++ [(k, v)], s.count⟩ (by simp) (by omega)
  refine ⟨r, s', e, h1, ?_, h3.trans List.perm_append_comm, h4⟩
  simpa using h2

theorem pop_run (s : HeapState K V) :
    (s.items = [] ∧ pop lt s = (.ok none, s)) ∨
    ∃ x t, s.items = x :: t ∧ ∃ r s', pop lt s = (r, s') ∧ s.count ≤ s'.count ∧
      s'.count ≤ s.count + 2 * Nat.log 2 t.length ∧ s'.items.Perm t ∧
      Blames lt s.count s'.count r ∧ ∀ o, r = .ok o → o = some x := by
  obtain ⟨l, c⟩ := s
  cases l with
  | nil => exact .inl ⟨rfl, rfl⟩
  | cons x t =>
    right
    refine ⟨x, t, rfl, ?_⟩
    rw [pop, items_bind]
    have h0 : 0 < (x :: t).length := by simp
    have hl : (x :: t).length - 1 < (x :: t).length := by simp
    obtain ⟨l2, e2, hl2⟩ : ∃ l2, setItem (x :: t) 0 (x :: t)[(x :: t).length - 1] = .ok l2 ∧
        l2.dropLast.Perm t := by
      refine ⟨(x :: t)[(x :: t).length - 1] :: t, by simp [setItem], ?_⟩
      rcases List.eq_nil_or_concat' t with rfl | ⟨t', y, rfl⟩
      · simp
      · have key : ∀ z, (z :: (t' ++ [y])).dropLast = z :: t' := by
          intro z; rw [← List.cons_append, List.dropLast_concat]
        have hy : (x :: (t' ++ [y]))[(x :: (t' ++ [y])).length - 1] = y := by simp
        rw [key, hy]
        exact (List.perm_append_comm (l₁ := [y]))
    simp only [List.isEmpty_cons, Bool.false_eq_true, if_false, getItem_lt h0, getItem_lt hl,
      lift_ok_bind, e2, put_bind]
    have hlen := hl2.length_eq
    obtain ⟨r, s', e, h1, h2, h3, h4⟩ := bubbleDownLoop_run lt (l2.dropLast.length + 1) 0
      ⟨l2.dropLast, c⟩ (by
        cases h : l2.dropLast with
        | nil => exact .inr ⟨rfl, rfl⟩
        | cons a b => exact .inl (by simp)) (by simp)
    have eb : bubbleDown lt ⟨l2.dropLast, c⟩ = (r, s') := by
      rw [bubbleDown, items_bind]; exact e
    have h2' : s'.count ≤ c + 2 * Nat.log 2 t.length := by
      rw [← hlen]; simpa using h2
    cases r with
    | error er =>
      exact ⟨_, _, bind_run_error eb, h1, h2', h3.trans hl2,
        fun e' he => h4 e' (by cases he; rfl), fun o h => by cases h⟩
    | ok u =>
      rw [bind_run_ok eb]
      exact ⟨_, _, rfl, h1, h2', h3.trans hl2, Blames.ok _ _ _ _, fun o h => by cases h; rfl⟩

/-! ## Comparisons of the logic -/

section logic
variable [LT K] [DecidableLT K]

/-- The comparison is that of the logic. -/
def ofOrder : ℕ → K → K → Except E Bool := fun _ x y => .ok (decide (x < y))

theorem less_order_bind (x y : K × V) (s : HeapState K V) (f : Bool → HeapM E K V β) :
    (less ofOrder x y >>= f) s = f (decide (x.1 < y.1)) ⟨s.items, s.count + 1⟩ := rfl

theorem getLocalMax_order (i : ℕ) (s : HeapState K V) (m : ℕ)
    (h : Verif.getLocalMax s.items i = .ok m) :
    ∃ c, getLocalMax (E := E) ofOrder i s = (.ok m, ⟨s.items, c⟩) := by
  unfold Verif.getLocalMax at h
  unfold getLocalMax
  rw [items_bind]
  dsimp only at h ⊢
  by_cases h1 : heapLeft i ≥ s.items.length
  · rw [if_pos h1] at h ⊢
    cases h
    exact ⟨_, rfl⟩
  · rw [if_neg h1] at h ⊢
    by_cases h2 : heapRight i ≥ s.items.length
    · rw [if_pos h2] at h ⊢
      obtain ⟨xi, e1, h⟩ := bind_eq_ok.mp h
      obtain ⟨xl, e2, h⟩ := bind_eq_ok.mp h
      simp only [e1, e2, lift_ok_bind, less_order_bind]
      by_cases h3 : xi.1 < xl.1
      · rw [if_pos h3] at h; cases h; simp only [h3, decide_true, if_true]; exact ⟨_, rfl⟩
      · rw [if_neg h3] at h; cases h
        simp only [h3, decide_false, Bool.false_eq_true, if_false]; exact ⟨_, rfl⟩
    · rw [if_neg h2] at h ⊢
      obtain ⟨xl, e2, h⟩ := bind_eq_ok.mp h
      obtain ⟨xr, e3, h⟩ := bind_eq_ok.mp h
      obtain ⟨xi, e1, h⟩ := bind_eq_ok.mp h
      obtain ⟨xm, e4, h⟩ := bind_eq_ok.mp h
      have e4' : getItem s.items (if decide (xl.1 < xr.1) = true then heapRight i else heapLeft i) =
        .ok xm := by rw [← e4]; simp only [decide_eq_true_eq]
      simp only [e1, e2, e3, lift_ok_bind, less_order_bind, e4']
      by_cases h3 : xi.1 < xm.1
      · rw [if_pos h3] at h; cases h
        simp only [h3, decide_true, if_true, decide_eq_true_eq]; exact ⟨_, rfl⟩
      · rw [if_neg h3] at h; cases h
        simp only [h3, decide_false, Bool.false_eq_true, if_false]; exact ⟨_, rfl⟩

theorem fixDown_order (i : ℕ) (s : HeapState K V) (l' : List (K × V)) (m : ℕ)
    (h : Verif.fixDown s.items i = .ok (l', m)) :
    ∃ c, fixDown (E := E) ofOrder i s = (.ok m, ⟨l', c⟩) := by
  unfold Verif.fixDown at h
  obtain ⟨m', e1, h⟩ := bind_eq_ok.mp h
  obtain ⟨c, e2⟩ := getLocalMax_order (E := E) i s m' e1
  rw [fixDown, bind_run_ok e2]
  by_cases hm : i < m'
  · rw [if_pos hm] at h ⊢
    obtain ⟨l2, e3, h⟩ := bind_eq_ok.mp h
    cases h
    rw [items_bind]
    simp only [e3, lift_ok_bind, put_bind]
    exact ⟨_, rfl⟩
  · rw [if_neg hm] at h ⊢
    cases h
    exact ⟨_, rfl⟩

theorem fixUp_order (i : ℕ) (s : HeapState K V) (l' : List (K × V)) (m : ℕ)
    (h : Verif.fixUp s.items i = .ok (l', m)) :
    ∃ c, fixUp (E := E) ofOrder i s = (.ok m, ⟨l', c⟩) := by
  unfold Verif.fixUp at h
  dsimp only at h
  obtain ⟨xp, e1, h⟩ := bind_eq_ok.mp h
  obtain ⟨xi, e2, h⟩ := bind_eq_ok.mp h
  rw [fixUp, items_bind]
  simp only [e1, e2, lift_ok_bind, less_order_bind]
  by_cases h3 : xp.1 < xi.1
  · rw [if_pos h3] at h
    obtain ⟨l2, e3, h⟩ := bind_eq_ok.mp h
    cases h
    simp only [h3, decide_true, if_true, e3, lift_ok_bind, put_bind]; exact ⟨_, rfl⟩
  · rw [if_neg h3] at h; cases h
    simp only [h3, decide_false, Bool.false_eq_true, if_false]; exact ⟨_, rfl⟩

theorem bubbleDownLoop_order : ∀ (fuel i : ℕ) (s : HeapState K V) (l' : List (K × V)),
    Verif.bubbleDownLoop fuel s.items i = .ok l' →
    ∃ c, bubbleDownLoop (E := E) ofOrder fuel i s = (.ok (), ⟨l', c⟩) := by
  intro fuel
  induction fuel with
  | zero => intro i s l' h; cases h
  | succ fuel ih =>
    intro i s l' h
    unfold Verif.bubbleDownLoop at h
    obtain ⟨⟨l1, m⟩, e1, h⟩ := bind_eq_ok.mp h
    obtain ⟨c, e2⟩ := fixDown_order (E := E) i s l1 m e1
    rw [bubbleDownLoop, bind_run_ok e2]
    by_cases hm : i = m
    · simp only [hm, if_true] at h ⊢
      cases h
      exact ⟨_, rfl⟩
    · simp only [hm, if_false] at h ⊢
      exact ih m ⟨l1, c⟩ l' h

theorem bubbleUpLoop_order : ∀ (fuel i : ℕ) (s : HeapState K V) (l' : List (K × V)),
    Verif.bubbleUpLoop fuel s.items i = .ok l' →
    ∃ c, bubbleUpLoop (E := E) ofOrder fuel i s = (.ok (), ⟨l', c⟩) := by
  intro fuel
  induction fuel with
  | zero => intro i s l' h; cases h
  | succ fuel ih =>
    intro i s l' h
    unfold Verif.bubbleUpLoop at h
    obtain ⟨⟨l1, m⟩, e1, h⟩ := bind_eq_ok.mp h
    obtain ⟨c, e2⟩ := fixUp_order (E := E) i s l1 m e1
    rw [bubbleUpLoop, bind_run_ok e2]
    by_cases hm : m = i
    · simp only [hm, if_true] at h ⊢
      cases h
      exact ⟨_, rfl⟩
    · simp only [hm, if_false] at h ⊢
      exact ih m ⟨l1, c⟩ l' h

theorem heap_add (h h' : MaxHeap K V) (k : K) (v : V) (c : ℕ) (e : h.add k v = .ok h') :
    ∃ c', add (E := E) ofOrder k v ⟨h.heap, c⟩ = (.ok (), ⟨h'.heap, c'⟩) := by
  unfold MaxHeap.add at e
  obtain ⟨l, e1, e⟩ := bind_eq_ok.mp e
  cases e
  exact bubbleUpLoop_order _ _ ⟨h.heap ++ [(k, v)], c⟩ l e1

theorem heap_pop (h h' : MaxHeap K V) (o : Option (K × V)) (c : ℕ) (e : h.pop = .ok (o, h')) :
    ∃ c', pop (E := E) ofOrder ⟨h.heap, c⟩ = (.ok o, ⟨h'.heap, c'⟩) := by
  obtain ⟨l, it⟩ := h
  unfold MaxHeap.pop at e
  cases l with
  | nil => cases e; exact ⟨c, rfl⟩
  | cons x t =>
    simp only at e
    obtain ⟨mv, e1, e⟩ := bind_eq_ok.mp e
    obtain ⟨la, e2, e⟩ := bind_eq_ok.mp e
    obtain ⟨l2, e3, e⟩ := bind_eq_ok.mp e
    obtain ⟨l4, e4, e⟩ := bind_eq_ok.mp e
    cases e
    rw [pop, items_bind]
    simp only [List.isEmpty_cons, Bool.false_eq_true, if_false, e1, e2, e3, lift_ok_bind, put_bind]
    obtain ⟨c', e5⟩ := bubbleDownLoop_order (E := E) _ _ ⟨l2.dropLast, c⟩ l4 e4
    have eb : bubbleDown (E := E) ofOrder ⟨l2.dropLast, c⟩ = (.ok (), ⟨l4, c'⟩) := by
      rw [bubbleDown, items_bind]; exact e5
    rw [bind_run_ok eb]
    exact ⟨_, rfl⟩

end logic

end HeapM

end Verif

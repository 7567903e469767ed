import Verif.Proof.HeapAny
import Verif.Spec.HeapAny

/-!
# C102, C103: the comparisons of a `MaxHeap`

How many comparisons the methods make, and what they leave behind when a comparison raises. The
comparisons may answer anything, also differently each time: `lt n x y` is what the `n`-th
comparison, of the keys `x` and `y`, answers or raises.
-/

set_option autoImplicit false
set_option linter.unusedSectionVars false

namespace Verif

variable {K V E : Type}

open HeapM

/-- **C102 (the model).** If the comparisons are those of an order, the methods return, and leave
behind, what the other model of the heap says. -/
theorem C102_result [LT K] [DecidableLT K] (h h' : MaxHeap K V) (c : ℕ) :
    (∀ k v, h.add k v = .ok h' →
      ∃ c', HeapM.add (E := E) (fun _ x y => .ok (decide (x < y))) k v ⟨h.heap, c⟩ =
        (.ok (), ⟨h'.heap, c'⟩)) ∧
    ∀ o, h.pop = .ok (o, h') →
      ∃ c', HeapM.pop (E := E) (fun _ x y => .ok (decide (x < y))) ⟨h.heap, c⟩ =
        (.ok o, ⟨h'.heap, c'⟩) :=
  ⟨fun k v e => heap_add h h' k v c e, fun o e => heap_pop h h' o c e⟩

/-- **C102 (adding).** `add` on a heap of `n` items makes at most `⌊log₂ (n + 1)⌋ + 1` comparisons,
whatever they answer. -/
theorem C102_add (lt : ℕ → K → K → Except E Bool) (k : K) (v : V) (s : HeapState K V) :
    (HeapM.add lt k v s).2.count ≤ s.count + (Nat.log 2 (s.items.length + 1) + 1) := by
  obtain ⟨r, s', e, _, h, _⟩ := add_run lt k v s
  rw [e]; exact h

/-- **C102 (removing).** `pop` on a heap of `n` items makes at most `2 ⌊log₂ (n - 1)⌋` comparisons,
whatever they answer. -/
theorem C102_pop (lt : ℕ → K → K → Except E Bool) (s : HeapState K V) :
    (HeapM.pop lt s).2.count ≤ s.count + 2 * Nat.log 2 (s.items.length - 1) := by
  rcases pop_run lt s with ⟨_, e⟩ | ⟨x, t, hs, r, s', e, _, h, _⟩
  · rw [e]; exact Nat.le_add_right _ _
  · rw [e, hs]; simpa using h

theorem heapTry_run (lt : ℕ → K → K → Except E Bool) (s : HeapState K V) (op : HeapOp K V) :
    ∃ r s', heapTry lt s op = (r, s') ∧ RaisedByComparison lt r ∧
      s'.count ≤ s.count + (2 * Nat.log 2 (s.items.length + 1) + 1) ∧
      s'.items.length ≤ s.items.length + 1 ∧
      ∃ lost : List (K × V), lost.length = failedPops [op] [r] ∧
        (addedItems [op] ++ s.items).Perm (s'.items ++ returnedItems [r] ++ lost) := by
  cases op with
  | add k v =>
    obtain ⟨r, s', e, _, h2, h3, h4⟩ := add_run lt k v s
    refine ⟨r.map (fun _ => none), s', by simp [heapTry, e], ?_, by omega,
      by rw [h3.length_eq]; simp, [], ?_, ?_⟩
    · intro e' he
      cases r with
      | ok u => cases he
      | error er =>
        cases he
        obtain ⟨n, x, y, e'', _, _, q3, q4⟩ := h4 _ rfl
        exact ⟨n, x, y, e'', q3, q4⟩
    · simp [failedPops]
    · cases r <;> simpa [addedItems, returnedItems, Except.map] using h3.symm
  | pop =>
    rcases pop_run lt s with ⟨hs, e⟩ | ⟨x, t, hs, r, s', e, _, h2, h3, h4, h5⟩
    · refine ⟨.ok none, s, e, ?_, by omega, by omega, [], ?_, ?_⟩
      · intro e' he; cases he
      · simp [failedPops]
      · simp [addedItems, returnedItems]
    · have hl : Nat.log 2 t.length ≤ Nat.log 2 (s.items.length + 1) :=
        Nat.log_mono_right (by rw [hs]; simp; omega)
      have hlost : ∀ r', r = r' → ∃ lost : List (K × V), lost.length = failedPops [HeapOp.pop] [r'] ∧
          (addedItems [HeapOp.pop] ++ s.items).Perm (s'.items ++ returnedItems [r'] ++ lost) := by
        intro r' hr
        cases r' with
        | ok o =>
          rw [h5 o hr]
          refine ⟨[], by simp [failedPops], ?_⟩
          simp only [addedItems, returnedItems, List.filterMap_cons, List.filterMap_nil, hs,
            List.nil_append, List.append_nil]
          exact ((List.Perm.cons x h3.symm).trans (List.perm_append_comm (l₁ := [x])))
        | error er =>
          refine ⟨[x], by simp [failedPops], ?_⟩
          simp only [addedItems, returnedItems, List.filterMap_cons, List.filterMap_nil, hs,
            List.nil_append, List.append_nil]
          exact ((List.Perm.cons x h3.symm).trans (List.perm_append_comm (l₁ := [x])))
      refine ⟨r, s', e, ?_, by omega, by rw [h3.length_eq, hs]; simp; omega, hlost r rfl⟩
      intro e' he
      obtain ⟨n, x, y, e'', _, _, q3, q4⟩ := h4 e' he
      exact ⟨n, x, y, e'', q3, q4⟩

theorem heapTries_run (lt : ℕ → K → K → Except E Bool) (ops : List (HeapOp K V)) :
    ∀ (s : HeapState K V) (N : ℕ), s.items.length + ops.length ≤ N →
    ∃ outs s', heapTries lt s ops = (outs, s') ∧ (∀ r ∈ outs, RaisedByComparison lt r) ∧
      s'.count ≤ s.count + ops.length * (2 * Nat.log 2 N + 1) ∧
      ∃ lost : List (K × V), lost.length = failedPops ops outs ∧
        (addedItems ops ++ s.items).Perm (s'.items ++ returnedItems outs ++ lost) := by
  induction ops with
  | nil =>
    intro s N _
    exact ⟨[], s, rfl, by simp, by simp, [], by simp [failedPops],
      by simp [addedItems, returnedItems]⟩
  | cons op ops ih =>
    intro s N hN
    simp only [List.length_cons] at hN
    obtain ⟨r, s1, e1, b1, c1, l1, lo1, n1, p1⟩ := heapTry_run lt s op
    obtain ⟨outs, s2, e2, b2, c2, lo2, n2, p2⟩ := ih s1 N (by omega)
    have hlog : Nat.log 2 (s.items.length + 1) ≤ Nat.log 2 N := Nat.log_mono_right (by omega)
    refine ⟨r :: outs, s2, by simp [heapTries, e1, e2], ?_, ?_, lo2 ++ lo1, ?_, ?_⟩
    · intro r' hr'
      rcases List.mem_cons.mp hr' with rfl | hr'
      · exact b1
      · exact b2 r' hr'
    · rw [List.length_cons, Nat.add_mul, Nat.one_mul]; omega
    · rw [List.length_append, n1, n2]
      simp only [failedPops, List.zip_cons_cons, List.zip_nil_right, List.filter_cons,
        List.filter_nil]
      split <;> simp
    · have a1 : addedItems (op :: ops) = addedItems [op] ++ addedItems ops := by
        simp only [addedItems, ← List.filterMap_append, List.singleton_append]
      have a2 : returnedItems (r :: outs) = returnedItems [r] ++ returnedItems outs := by
        simp only [returnedItems, ← List.filterMap_append, List.singleton_append]
      rw [a1, a2]
      classical
      rw [List.perm_iff_count] at p1 p2 ⊢
      intro a
      have q1 := p1 a
      have q2 := p2 a
      simp only [List.count_append] at q1 q2 ⊢
      omega

/-- **C102 (histories).** A history of `m` calls on a fresh heap makes at most
`m (2 ⌊log₂ m⌋ + 1)` comparisons. -/
theorem C102_history (lt : ℕ → K → K → Except E Bool) (ops : List (HeapOp K V)) :
    (heapTries lt ⟨[], 0⟩ ops).2.count ≤ ops.length * (2 * Nat.log 2 ops.length + 1) := by
  obtain ⟨outs, s', e, _, h, _⟩ := heapTries_run lt ops ⟨[], 0⟩ ops.length (by simp)
  rw [e]; simpa using h

/-- **C103 (adding).** Whatever the comparisons answer or raise, `add` raises nothing but what a
comparison raised, and in any case the item is then in the heap, with all the others. -/
theorem C103_add (lt : ℕ → K → K → Except E Bool) (k : K) (v : V) (s : HeapState K V) :
    RaisedByComparison lt (HeapM.add lt k v s).1 ∧
      (HeapM.add lt k v s).2.items.Perm ((k, v) :: s.items) := by
  obtain ⟨r, s', e, _, _, h3, h4⟩ := add_run lt k v s
  rw [e]
  refine ⟨fun e' he => ?_, h3⟩
  obtain ⟨n, x, y, e'', _, _, q3, q4⟩ := h4 e' he
  exact ⟨n, x, y, e'', q3, q4⟩

/-- **C103 (removing).** Whatever the comparisons answer or raise, `pop` on a heap that is not empty
raises nothing but what a comparison raised, and in any case the first item is then out of the heap
and all the others are in it: if `pop` raises, the client does not get that item. -/
theorem C103_pop (lt : ℕ → K → K → Except E Bool) (x : K × V) (t : List (K × V)) (c : ℕ) :
    RaisedByComparison lt (HeapM.pop lt ⟨x :: t, c⟩).1 ∧
      (∀ o, (HeapM.pop lt ⟨x :: t, c⟩).1 = .ok o → o = some x) ∧
      (HeapM.pop lt ⟨x :: t, c⟩).2.items.Perm t := by
  rcases pop_run lt ⟨x :: t, c⟩ with ⟨hs, _⟩ | ⟨x', t', hs, r, s', e, _, _, h3, h4, h5⟩
  · cases hs
  · cases hs
    rw [e]
    refine ⟨fun e' he => ?_, h5, h3⟩
    obtain ⟨n, x, y, e'', _, _, q3, q4⟩ := h4 e' he
    exact ⟨n, x, y, e'', q3, q4⟩

/-- **C103 (histories).** A client catches every exception and goes on. Whatever the comparisons
answer or raise, each call raises nothing but what a comparison raised, and the items that were
added are those in the heap, those returned, and one for each call of `pop` that raised. -/
theorem C103_history (lt : ℕ → K → K → Except E Bool) (ops : List (HeapOp K V))
    (outs : List (Except (HeapExc E) (Option (K × V)))) (s : HeapState K V)
    (h : heapTries lt ⟨[], 0⟩ ops = (outs, s)) :
    (∀ r ∈ outs, RaisedByComparison lt r) ∧
      ∃ lost : List (K × V), lost.length = failedPops ops outs ∧
        (addedItems ops).Perm (s.items ++ returnedItems outs ++ lost) := by
  obtain ⟨outs', s', e, h1, _, lost, h2, h3⟩ := heapTries_run lt ops ⟨[], 0⟩ _ (le_refl _)
  rw [e] at h
  cases h
  exact ⟨h1, lost, h2, by simpa using h3⟩

section examples

/-- The comparisons of numbers, of which the second one made raises. -/
def secondRaises (n x y : ℕ) : Except Unit Bool := if n = 1 then .error () else .ok (decide (x < y))

/-- **C103 (the order is lost).** After a comparison raised, the heap is no longer a priority queue,
even if no further comparison raises: `pop` may return an item that is not the largest one. -/
theorem C103_order :
    ∃ (lt : ℕ → ℕ → ℕ → Except Unit Bool) (outs : List (Except (HeapExc Unit) (Option (ℕ × Char))))
      (s : HeapState ℕ Char),
      (∀ n x y, lt n x y = .ok (decide (x < y)) ∨ n = 1) ∧
      heapTries lt ⟨[], 0⟩ [.add 1 'a', .add 2 'b', .pop] = (outs, s) ∧
      outs = [.ok none, .error (.compare ()), .ok (some (1, 'a'))] ∧ s.items = [(2, 'b')] := by
  refine ⟨secondRaises, _, _, ?_, rfl, rfl, rfl⟩
  intro n x y
  unfold secondRaises
  split
  · right; assumption
  · left; rfl

/-- Non-vacuity of `C102_result`, and the number of comparisons made. -/
example : (heapTries (E := Unit) (fun _ x y : ℕ => .ok (decide (x < y))) ⟨[], 0⟩
    [.add 3 'a', .add 5 'b', .add 4 'c', .pop, .pop]).2.count = 5 := by decide +kernel

example : ∃ h', MaxHeap.add (⟨[(5, 'b'), (3, 'a')], .unset⟩ : MaxHeap ℕ Char) 7 'c' = .ok h' ∧
    h'.heap = [(7, 'c'), (3, 'a'), (5, 'b')] := ⟨_, rfl, rfl⟩

/-- Non-vacuity of `C103_history`: a failed `add` and a failed `pop`, and the item that got lost. -/
example : ∃ s, heapTries (E := Unit) (V := Char)
      (fun n x y : ℕ => if n = 1 ∨ n = 4 then .error () else .ok (decide (x < y))) ⟨[], 0⟩
      [.add 1 'a', .add 2 'b', .add 3 'c', .pop] =
        ([.ok none, .error (.compare ()), .ok none, .error (.compare ())], s) ∧
      s.items = [(1, 'a'), (2, 'b')] := ⟨_, rfl, rfl⟩

end examples

end Verif

import Verif.Proof.UnionFindSteps
import Mathlib.Data.Nat.Log

/-!
# C107, C108: interrupted calls of a UnionFind, and calls of several threads
-/

set_option autoImplicit false
set_option linter.unusedSectionVars false

namespace Verif

variable {α : Type} [DecidableEq α]

open UnionFind UFThread

/-- **C107 (steps).** Left alone, the accesses of a call lead in every reachable state to the answer
and the object that the call gives as a whole. -/
theorem C107_steps (items : List α) (before : List (UFOp α)) (op : UFOp α) :
    ∃ n, steps n (ufCalls (init items) before).2 (startCall op) =
      ((ufCall (ufCalls (init items) before).2 op).2,
        .done (ufCall (ufCalls (init items) before).2 op).1) :=
  steps_call items before op

/-- Non-vacuity: a union of two classes of two elements takes ten accesses. -/
example : (steps 10 (ufCalls (init [1, 2, 3, 4]) [.union 1 2, .union 3 4]).2 (startCall (.union 2 3))).2 =
    .done (.ok 1) := by decide +kernel

/-- **C107.** After any history of calls, each interrupted after any number of accesses to the dicts or
run to its end, `find` still answers on every element, and `find(x) == find(y)` exactly when `x` and
`y` are connected by a set of pairs that has all pairs of finished calls of `union`, and no pair but
those of calls of `union`: an interrupted call has happened or has not. -/
theorem C107_interrupted (items : List α) (calls : List (UFOp α × ℕ)) :
    ∃ pairs : List (α × α),
      (∀ p ∈ unitedPairs items (finishedCalls (init items) calls), p ∈ pairs) ∧
      (∀ p ∈ pairs, p ∈ unitedPairs items (calls.map Prod.fst)) ∧
      ∀ x ∈ items, ∀ y ∈ items, ∃ r s u,
        (interruptedCalls (init items) calls).find x = (.ok r, u) ∧ (u.find y).1 = .ok s ∧
        (r = s ↔ Connected pairs x y) := by
  obtain ⟨rt, q, h1, _, h3, h4⟩ := interrupted_weak items calls [] id _ (init_inv items).weak
  refine ⟨q, h4, fun p hp => (h3 p hp).resolve_left (by simp), fun x hx y hy => ?_⟩
  have hx' : x ∈ items.toFinset := by simpa using hx
  have hy' : y ∈ items.toFinset := by simpa using hy
  obtain ⟨u1, e1, i1⟩ := h1.find_ok hx'
  obtain ⟨u2, e2, _⟩ := i1.find_ok hy'
  exact ⟨_, _, u1, e1, by rw [e2], h1.eqv x hx' y hy'⟩

/-- Non-vacuity: the first call is interrupted before it links, the second one after it linked and
before it recorded the size, the third one is finished. -/
example : (interruptedCalls (init [1, 2, 3]) [(.union 1 2, 3), (.union 2 3, 5), (.find 3, 9)]).parent =
      ⟨[(1, 1), (2, 2), (3, 2)]⟩ ∧
    (interruptedCalls (init [1, 2, 3]) [(.union 1 2, 3), (.union 2 3, 5), (.find 3, 9)]).size =
      ⟨[(1, 1), (2, 1), (3, 1)]⟩ ∧
    (finishedCalls (init [1, 2, 3]) [(.union 1 2, 3), (.union 2 3, 5), (.find 3, 9)]).length = 1 := by
  decide +kernel

/-- **C107 (what is lost).** After interrupted unions the trees need not be flat: here four elements
are in a chain of three steps, although `2 ^ 3 > 4` (compare C08). -/
theorem C107_depth_violation :
    ∃ (items : List ℕ) (calls : List (UFOp ℕ × ℕ)) (x : ℕ), x ∈ items ∧ items.length < 2 ^ 3 ∧
      ∀ n, n < 3 → (parentStep (interruptedCalls (init items) calls))^[n] x ≠
        (parentStep (interruptedCalls (init items) calls))^[n + 1] x :=
  ⟨[1, 2, 3, 4], [(.union 2 1, 5), (.union 3 2, 5), (.union 4 3, 5)], 1, by decide, by decide,
    by decide +kernel⟩

/-- **C108.** Any number of threads call `find` on one object, each for one element (known or not), and
their accesses to the dicts happen in any order: no thread gets another answer than it would alone;
a thread is done after `4 log2 n + 1` accesses of its own, where `n` is the number of elements,
whatever the others do; and no answer of any later call changes. -/
theorem C108_finds_partial (items : List α) (before after : List (UFOp α)) (xs : List α)
    (sched : List ℕ) :
    let u := (ufCalls (init items) before).2
    let s := runSchedule sched u (xs.map startFind)
    (∀ (i : ℕ) (x : α), xs[i]? = some x → ∃ t, s.2[i]? = some t ∧
      (∀ r, t = .done r → r = (u.find x).1) ∧
      (4 * Nat.log 2 items.length + 1 ≤ sched.count i → ∃ r, t = .done r)) ∧
    (ufCalls s.1 after).1 = (ufCalls u after).1 := by
  intro u s
  obtain ⟨rt, h⟩ := reachable_inv items before
  obtain ⟨h1, h2, h3, h4⟩ := schedule_ok (xs := xs) sched u (xs.map startFind) h (by simp) (by
    intro i x t hx ht
    rw [List.getElem?_map, hx] at ht
    cases ht
    exact ⟨rfl, fun hx => ⟨hx, rfl⟩, fun _ => rfl⟩)
  refine ⟨?_, ?_⟩
  · intro i x hx
    have hi : i < s.2.length := by
      rw [h2]; exact (List.getElem?_eq_some_iff.mp hx).1
    obtain ⟨t, ht⟩ : ∃ t, s.2[i]? = some t := ⟨_, List.getElem?_eq_getElem hi⟩
    have hat := h3 i x t hx ht
    refine ⟨t, ht, ?_, ?_⟩
    · rintro r rfl
      simp only [At] at hat
      by_cases hxS : x ∈ items.toFinset
      · obtain ⟨_, e, _⟩ := h.find_ok hxS
        rw [hat, if_pos hxS, e]
      · rw [hat, if_neg hxS, h.find_unknown hxS]
    · intro hB
      have hstart : (xs.map startFind)[i]? = some (startFind x) := by
        rw [List.getElem?_map, hx]; rfl
      obtain ⟨t', ht', hw⟩ := h4 i x (startFind x) 0 hx hstart (by
        rw [zero_add]
        by_cases hxS : x ∈ items.toFinset
        · obtain ⟨n, hp, hn⟩ := h.path x hxS
          have hn' : n ≤ Nat.log 2 items.length := by
            refine Nat.le_log_of_pow_le (by decide) (hn.trans ?_)
            exact (Finset.card_filter_le _ _).trans (List.toFinset_card_le _)
          exact Or.inl ⟨n, n, _, _, hp, hp, by omega⟩
        · refine Or.inr ⟨?_, by omega⟩
          rw [PyDict.get?_eq_none, h.keys]
          exact hxS)
      rw [ht] at ht'
      cases ht'
      exact within_zero h1 hat hw
  · obtain ⟨outs, _, _, _, hh⟩ := ufCalls_inv items after (unitedPairs items before) rt
    rw [(hh _ h1).1, (hh _ h).1]

/-- Non-vacuity: four threads, one of them searching an unknown element, taking turns in a state in which
two of the paths are compressed by two threads at a time. -/
example :
    let u := (ufCalls (init [1, 2, 3, 4]) [.union 1 2, .union 3 4, .union 1 3]).2
    let s := runSchedule ((List.replicate 9 [0, 1, 2, 3]).flatten) u ([4, 4, 3, 7].map startFind)
    s.2 = [.done (.ok 1), .done (.ok 1), .done (.ok 1), .done (.error .keyError)] ∧
      s.1.parent = ⟨[(1, 1), (2, 1), (3, 1), (4, 1)]⟩ ∧
      u.parent = ⟨[(1, 1), (2, 1), (3, 1), (4, 3)]⟩ := by decide +kernel

/-- A call that stays where it is not done, without writing, never ends. -/
theorem endless_of_invariant {u : UnionFind α} (P : UFThread α → Prop)
    (hstep : ∀ t, P t → (step u t).1 = u ∧ P (step u t).2) (hP : ∀ t, P t → t.isDone = false) :
    ∀ (n : ℕ) (t : UFThread α), P t → (steps n u t).2.isDone = false := by
  intro n
  induction n with
  | zero => exact hP
  | succ n ih =>
    intro t ht
    obtain ⟨h1, h2⟩ := hstep t ht
    simp only [steps]
    rw [h1]
    exact ih _ h2

/-- **C108 (violation: a union is lost).** Two threads call `union(2, 1)` and `union(3, 1)`. Both calls
return, and 1 and 2 are not united. -/
theorem C108_lost_union_violation :
    ∃ (sched : List ℕ) (u : UnionFind ℕ),
      runSchedule sched (init [1, 2, 3]) [startUnion 2 1, startUnion 3 1] =
        (u, [.done (.ok 2), .done (.ok 3)]) ∧
      (u.find 1).1 ≠ (u.find 2).1 :=
  ⟨[0, 0, 0, 0, 1, 1, 1, 1, 0, 0, 1, 1], _, rfl, by decide +kernel⟩

/-- **C108 (violation: a search that never ends).** Two threads call `union(1, 2)` and `union(2, 1)`. Both
calls return, and afterwards `find(1)` never does. -/
theorem C108_endless_violation :
    ∃ (sched : List ℕ) (u : UnionFind ℕ),
      runSchedule sched (init [1, 2]) [startUnion 1 2, startUnion 2 1] =
        (u, [.done (.ok 1), .done (.ok 2)]) ∧
      ∀ n, (steps n u (startFind 1)).2.isDone = false := by
  refine ⟨[0, 0, 0, 0, 1, 1, 1, 1, 0, 0, 1, 1], ⟨⟨[(1, 2), (2, 1)]⟩, ⟨[(1, 2), (2, 2)]⟩⟩, rfl, ?_⟩
  refine fun n => endless_of_invariant
    (fun t : UFThread ℕ => t = .findTest 1 1 .ret ∨ t = .findNext 1 1 .ret ∨ t = .findTest 1 2 .ret ∨
      t = .findNext 1 2 .ret) ?_ ?_ n _ (Or.inl rfl)
  · rintro t (rfl | rfl | rfl | rfl) <;> exact ⟨rfl, by decide +kernel⟩
  · rintro t (rfl | rfl | rfl | rfl) <;> rfl

/-- **C108 (violation: searching while one thread unites).** One thread unites and searches, one call
after the other, and another thread only calls `find(2)`. All calls return, and afterwards `find(2)`
never does: the thread that only searches has redirected a representative to a former one. -/
theorem C108_search_violation :
    ∃ (sched : List ℕ) (u : UnionFind ℕ),
      runSchedule sched (ufCalls (init [1, 2, 3, 4]) [.union 1 2, .union 3 4]).2
          [startFind 2, startUnion 3 1, startFind 2] =
        (u, [.done (.ok 1), .done (.ok 3), .done (.ok 3)]) ∧
      ∀ n, (steps n u (startFind 2)).2.isDone = false := by
  refine ⟨[0, 0, 0] ++ List.replicate 6 1 ++ List.replicate 9 2 ++ List.replicate 6 0,
    ⟨⟨[(1, 3), (2, 1), (3, 1), (4, 3)]⟩, ⟨[(1, 2), (2, 1), (3, 4), (4, 1)]⟩⟩, rfl, ?_⟩
  refine fun n => endless_of_invariant
    (fun t : UFThread ℕ => t = .findTest 2 2 .ret ∨ t = .findNext 2 2 .ret ∨ t = .findTest 2 1 .ret ∨
      t = .findNext 2 1 .ret ∨ t = .findTest 2 3 .ret ∨ t = .findNext 2 3 .ret) ?_ ?_ n _ (Or.inl rfl)
  · rintro t (rfl | rfl | rfl | rfl | rfl | rfl) <;> exact ⟨rfl, by decide +kernel⟩
  · rintro t (rfl | rfl | rfl | rfl | rfl | rfl) <;> rfl

end Verif

import Verif.Proof.Heap
import Verif.Spec.PriorityQueue
import Mathlib.Data.Multiset.Basic

/-!
# C03, C04, C60: MaxHeap
-/

namespace Verif

variable {K V : Type} [LinearOrder K]

/-- A client calling one method of a `MaxHeap`. -/
def heapCall (h : MaxHeap K V) : PQOp K V → Py (PQOut K V × MaxHeap K V)
  | .add k v => do return (.done, ← h.add k v)
  | .pop => do let (x, h) ← h.pop; return (.item x, h)
  | .top => do return (.item (← h.top), h)
  | .len => .ok (.num h.len, h)
  | .list => do let (l, h) ← h.toList; return (.items l, h)

/-- A client making a sequence of calls. -/
def heapCalls (h : MaxHeap K V) : List (PQOp K V) → Py (List (PQOut K V) × MaxHeap K V)
  | [] => .ok ([], h)
  | op :: ops => do
    let (o, h) ← heapCall h op
    let (os, h) ← heapCalls h ops
    return (o :: os, h)

theorem heapCall_ok (h : MaxHeap K V) (hh : h.Ok) (op : PQOp K V) :
    ∃ o h', heapCall h op = .ok (o, h') ∧ h'.Ok ∧
      PQStep (h.heap : Multiset (K × V)) op o (h'.heap : Multiset (K × V)) := by
  cases op with
  | add k v =>
    obtain ⟨h', e, o, p⟩ := h.add_ok k v hh
    refine ⟨.done, h', by simp [heapCall, e], o, ?_⟩
    have : (h'.heap : Multiset (K × V)) = (k, v) ::ₘ (h.heap : Multiset (K × V)) :=
      Multiset.coe_eq_coe.mpr p
    rw [this]; exact .add _ _ _
  | pop =>
    rcases h.pop_ok hh with ⟨hl, e⟩ | ⟨x, h', e, o, p, -, m⟩
    · refine ⟨.item none, h, by simp [heapCall, e], hh, ?_⟩
      rw [hl]; exact .popEmpty
    · refine ⟨.item (some x), h', by simp [heapCall, e], o, ?_⟩
      have : (h.heap : Multiset (K × V)) = x ::ₘ (h'.heap : Multiset (K × V)) :=
        Multiset.coe_eq_coe.mpr p
      rw [this]
      refine .pop _ _ ⟨by simp, ?_⟩
      rw [← this]
      exact fun y hy => m y (Multiset.mem_coe.mp hy)
  | top =>
    refine ⟨.item h.heap[0]?, h, by simp [heapCall, h.top_ok], hh, ?_⟩
    rcases hl : h.heap with _ | ⟨x, t⟩
    · exact .topEmpty
    · refine .top _ _ ⟨by simp, ?_⟩
      have hord : HeapOrd (x :: t) := by rw [← hl]; exact hh
      exact fun y hy => HeapOrd.root_max hord y (Multiset.mem_coe.mp hy)
  | len => exact ⟨.num h.len, h, rfl, hh, .len _⟩
  | list =>
    refine ⟨.items h.heap, ⟨h.heap, .exhausted⟩, by simp [heapCall, h.toList_ok], hh, ?_⟩
    exact .list _ _ rfl

/-- **C03.** Every sequence of calls on a fresh `MaxHeap` succeeds, and its
answers are those of a priority queue that starts empty. -/
theorem C03_heap_is_priority_queue (ops : List (PQOp K V)) :
    ∃ outs h m, heapCalls (MaxHeap.init : MaxHeap K V) ops = .ok (outs, h) ∧
      PQRun (0 : Multiset (K × V)) ops outs m ∧ Multiset.card m = h.len := by
  suffices H : ∀ (h : MaxHeap K V), h.Ok → ∃ outs h', heapCalls h ops = .ok (outs, h') ∧
      PQRun (h.heap : Multiset (K × V)) ops outs (h'.heap : Multiset (K × V)) by
    obtain ⟨outs, h', e, r⟩ := H MaxHeap.init MaxHeap.init_ok
    exact ⟨outs, h', _, e, r, rfl⟩
  induction ops with
  | nil => intro h _; exact ⟨[], h, rfl, .nil _⟩
  | cons op ops ih =>
    intro h hh
    obtain ⟨o, h1, e1, ok1, s1⟩ := heapCall_ok h hh op
    obtain ⟨os, h2, e2, r2⟩ := ih h1 ok1
    exact ⟨o :: os, h2, by simp [heapCalls, e1, e2], .cons s1 r2⟩

/-- Non-vacuity: a concrete history with equal keys, run by the model. -/
example : ∃ h, heapCalls (MaxHeap.init : MaxHeap ℕ Char)
      [.add 1 'a', .add 3 'b', .add 3 'c', .top, .pop, .pop, .len, .list]
    = .ok ([.done, .done, .done, .item (some (3, 'b')), .item (some (3, 'b')),
        .item (some (3, 'c')), .num 1, .items [(1, 'a')]], h) := ⟨_, rfl⟩

/-- Add every pair of a list. -/
def heapAddAll (h : MaxHeap K V) : List (K × V) → Py (MaxHeap K V)
  | [] => .ok h
  | x :: xs => do heapAddAll (← h.add x.1 x.2) xs

/-- Call `pop` until it answers `None`, at most `n` times. -/
def heapDrain : ℕ → MaxHeap K V → Py (List (K × V))
  | 0, _ => .error .diverge
  | n + 1, h => do
    match ← h.pop with
    | (none, _) => return []
    | (some x, h) => return x :: (← heapDrain n h)

theorem heapAddAll_ok (xs : List (K × V)) : ∀ (h : MaxHeap K V), h.Ok →
    ∃ h', heapAddAll h xs = .ok h' ∧ h'.Ok ∧ h'.heap.Perm (xs ++ h.heap) := by
  induction xs with
  | nil => intro h hh; exact ⟨h, rfl, hh, .refl _⟩
  | cons x xs ih =>
    intro h hh
    obtain ⟨h1, e1, o1, p1⟩ := h.add_ok x.1 x.2 hh
    obtain ⟨h2, e2, o2, p2⟩ := ih h1 o1
    refine ⟨h2, by simp [heapAddAll, e1, e2], o2, ?_⟩
    exact p2.trans ((p1.append_left xs).trans List.perm_middle)

theorem heapDrain_ok : ∀ (n : ℕ) (h : MaxHeap K V), h.Ok → h.heap.length = n →
    ∃ l, heapDrain (n + 1) h = .ok l ∧ l.Perm h.heap ∧
      l.Pairwise (fun a b => b.1 ≤ a.1) := by
  intro n
  induction n with
  | zero =>
    intro h hh hl
    have : h.heap = [] := List.length_eq_zero_iff.mp hl
    refine ⟨[], by simp [heapDrain, MaxHeap.pop, this], by simp [this], .nil⟩
  | succ n ih =>
    intro h hh hl
    rcases h.pop_ok hh with ⟨h0, _⟩ | ⟨x, h', e, o, p, -, m⟩
    · rw [h0] at hl; cases hl
    · have hlen : h'.heap.length = n := by
        have := p.length_eq; simp at this; omega
      obtain ⟨l, e2, p2, s2⟩ := ih h' o hlen
      refine ⟨x :: l, by rw [heapDrain]; simp [e, e2], (p2.cons x).trans p.symm, ?_⟩
      rw [List.pairwise_cons]
      refine ⟨fun y hy => m y ?_, s2⟩
      exact p.mem_iff.mpr (List.mem_cons_of_mem _ (p2.mem_iff.mp hy))

/-- **C04.** Adding a list of pairs to a fresh heap and popping until `None`
yields the same pairs with keys in non-increasing order; `None` is answered by
pop number `length + 1`. -/
theorem C04_heap_drain_sorts (xs : List (K × V)) :
    ∃ h l, heapAddAll (MaxHeap.init : MaxHeap K V) xs = .ok h ∧
      heapDrain (xs.length + 1) h = .ok l ∧ l.Perm xs ∧
      l.Pairwise (fun a b => b.1 ≤ a.1) := by
  obtain ⟨h, e, o, p⟩ := heapAddAll_ok xs MaxHeap.init MaxHeap.init_ok
  have p' : h.heap.Perm xs := by simpa [MaxHeap.init] using p
  obtain ⟨l, e2, p2, s2⟩ := heapDrain_ok xs.length h o p'.length_eq
  exact ⟨h, l, e, e2, p2.trans p', s2⟩

/-- Non-vacuity: duplicates and an unsorted input. -/
example : (do heapDrain 6 (← heapAddAll (MaxHeap.init : MaxHeap ℤ Char)
      [(2, 'a'), (-1, 'b'), (7, 'c'), (2, 'd'), (0, 'e')]))
    = .ok [(7, 'c'), (2, 'd'), (2, 'a'), (0, 'e'), (-1, 'b')] := by rfl

/-- **C60 (violation).** A heap is its own iterator: starting a second iteration
inside a first one makes the first one lose its place. Here the outer loop has
read one of two items; a complete inner loop runs; the outer loop then ends
without having seen the second item. -/
theorem C60_nested_iteration_violation :
    ∃ (h : MaxHeap ℕ Char) (h1 h2 h3 : MaxHeap ℕ Char) (x : ℕ × Char) (l : List (ℕ × Char)),
      heapAddAll MaxHeap.init [(1, 'a'), (2, 'b')] = .ok h ∧
      h.startIter.next = .ok (some x, h1) ∧ h1.toList = .ok (l, h2) ∧ l.length = 2 ∧
      h2.next = .ok (none, h3) :=
  ⟨_, _, _, _, _, _, rfl, rfl, rfl, rfl, rfl⟩

omit [LinearOrder K] in
/-- **C60 (partial).** An iteration not interrupted by another one yields every
stored pair once. -/
theorem C60_iteration_complete_partial (h : MaxHeap K V) :
    ∃ l h', h.toList = .ok (l, h') ∧ l = h.heap ∧ h'.heap = h.heap ∧
      h'.next = .ok (none, h') := ⟨_, _, h.toList_ok, rfl, rfl, rfl⟩

example : ∃ l h', (⟨[(5, 'x'), (2, 'y')], .live 1⟩ : MaxHeap ℕ Char).toList = .ok (l, h') ∧
    l = [(5, 'x'), (2, 'y')] :=
  let ⟨l, h', a, b, _⟩ := C60_iteration_complete_partial
    (⟨[(5, 'x'), (2, 'y')], .live 1⟩ : MaxHeap ℕ Char)
  ⟨l, h', a, b⟩

end Verif

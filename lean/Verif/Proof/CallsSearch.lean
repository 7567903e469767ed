import Verif.Proof.CallsTrace

set_option autoImplicit false
set_option linter.unusedSectionVars false

namespace Verif

variable {T R α β : Type}

open Calls VPArray

theorem QueriesOnce.nil (q : T) (X : List T) : QueriesOnce q X [] :=
  ⟨[], List.nil_subperm, .nil⟩

theorem QueriesOnce.mono {q : T} {X Y : List T} {l : List (T × T)} (h : QueriesOnce q X l)
    (hs : X.Subperm Y) : QueriesOnce q Y l := by
  obtain ⟨o, h1, h2⟩ := h
  exact ⟨o, h1.trans hs, h2⟩

theorem QueriesOnce.append {q : T} {X Y : List T} {l l' : List (T × T)} (h : QueriesOnce q X l)
    (h' : QueriesOnce q Y l') : QueriesOnce q (X ++ Y) (l ++ l') := by
  obtain ⟨o, h1, h2⟩ := h
  obtain ⟨o', h1', h2'⟩ := h'
  exact ⟨o ++ o', h1.append h1', List.rel_append h2 h2'⟩

theorem QueriesOnce.swap {q : T} {X Y : List T} {l l' : List (T × T)} (h : QueriesOnce q Y l)
    (h' : QueriesOnce q X l') : QueriesOnce q (X ++ Y) (l ++ l') :=
  (h.append h').mono List.perm_append_comm.subperm

theorem QueriesOnce.left {q : T} {X Y : List T} {l : List (T × T)} (h : QueriesOnce q X l) :
    QueriesOnce q (X ++ Y) l := h.mono (List.sublist_append_left _ _).subperm

theorem QueriesOnce.right {q : T} {X Y : List T} {l : List (T × T)} (h : QueriesOnce q Y l) :
    QueriesOnce q (X ++ Y) l := h.mono (List.sublist_append_right _ _).subperm

theorem QueriesOnce.cons {q v : T} {X : List T} {l : List (T × T)} (h : QueriesOnce q X l) :
    QueriesOnce q (v :: X) ((q, v) :: l) := by
  obtain ⟨o, h1, h2⟩ := h
  exact ⟨v :: o, (List.subperm_cons v).mpr h1, .cons (.inl rfl) h2⟩

theorem QueriesOnce.cons' {q v : T} {X : List T} {l : List (T × T)} (h : QueriesOnce q X l) :
    QueriesOnce q (v :: X) ((v, q) :: l) := by
  obtain ⟨o, h1, h2⟩ := h
  exact ⟨v :: o, (List.subperm_cons v).mpr h1, .cons (.inr rfl) h2⟩

theorem QueriesOnce.length_le {q : T} {X : List T} {l : List (T × T)} (h : QueriesOnce q X l) :
    l.length ≤ X.length := by
  obtain ⟨o, h1, h2⟩ := h
  rw [h2.length_eq]
  exact h1.length_le

theorem QueriesOnce.within {q : T} {X : List T} {l : List (T × T)} (h : QueriesOnce q X l)
    (hq : q ∈ X) : CallsWithin X l := by
  obtain ⟨o, h1, h2⟩ := h
  intro c hc
  have : ∃ x ∈ o, c = (q, x) ∨ c = (x, q) := by
    clear h1
    induction h2 with
    | nil => cases hc
    | cons hr _ ih =>
      rcases List.mem_cons.mp hc with rfl | hc
      · exact ⟨_, List.mem_cons_self, hr⟩
      · obtain ⟨x, hx, h⟩ := ih hc
        exact ⟨x, List.mem_cons_of_mem _ hx, h⟩
  obtain ⟨x, hx, rfl | rfl⟩ := this
  · exact ⟨hq, h1.subset hx⟩
  · exact ⟨h1.subset hx, hq⟩

section search
variable [LE R] [LT R] [DecidableLE R] [DecidableLT R] [Zero R] [Neg R] [Sub R]

theorem trace_ballLeafC (d : T → T → R) (q : T) (eps : R) (inc : Bool) (xs : List T) :
    (ballLeafC q eps inc xs).trace d = xs.map fun x => (q, x) := by
  induction xs with
  | nil => rfl
  | cons x xs ih =>
    simp only [ballLeafC, trace_metric_bind, List.map_cons]
    rw [trace_bind_quiet (fun _ => rfl), ih]

theorem queriesOnce_map (q : T) (xs : List T) : QueriesOnce q xs (xs.map fun x => (q, x)) := by
  induction xs with
  | nil => exact .nil _ _
  | cons x xs ih => exact ih.cons

theorem trace_flatBallLoopC {p : VPParams R} {dt : T → T → R} (d : T → T → R)
    {a : VPArray T R} (h : a.WF) (q : T) (eps : R) (inc : Bool) {s e : ℕ}
    (t : FlatTree p dt a s e) :
    ∀ fuel rest acc, ∃ l, QueriesOnce q (a.pts s e) l ∧
      ((flatBallLoopC a q eps inc fuel ((s, e) :: rest) acc).trace d = l ∨
        ∃ fuel' acc', (flatBallLoopC a q eps inc fuel ((s, e) :: rest) acc).trace d =
          l ++ (flatBallLoopC a q eps inc fuel' rest acc').trace d) := by
  induction t with
  | @leaf s e hs hse he ht _ =>
    intro fuel rest acc
    cases fuel with
    | zero => exact ⟨[], .nil _ _, .inl rfl⟩
    | succ fuel =>
      obtain ⟨r, hr⟩ := h.getDistance hs
      obtain ⟨v, hv, _⟩ := h.getPoint hs
      refine ⟨(a.pts s e).map fun x => (q, x), queriesOnce_map _ _, .inr ⟨fuel,
        acc ++ (a.pts s e).filter fun x => insideBall eps inc (d q x), ?_⟩⟩
      · simp only [flatBallLoopC, lift_eq, hr, hv, trace_done_bind, WF.isTerminal ht, if_true,
          h.getPoints]
        rw [trace_bind_ok (answer_ballLeafC d q eps inc _), trace_ballLeafC]
  | @node s e v r hse he ht hv hr hy hl hh left right ihl ihr =>
    intro fuel rest acc
    cases fuel with
    | zero => exact ⟨[], .nil _ _, .inl rfl⟩
    | succ fuel =>
      have hpts := FlatTree.pts_node h hse he hv
      have hrd : a.getDistance s = .ok r := getItem_ok hr
      have hvp := getPoint_of_pt hv
      rw [hpts]
      simp only [flatBallLoopC, lift_eq, hrd, hvp, trace_done_bind, WF.isTerminal ht]
      simp only [Bool.false_eq_true, if_false, trace_metric_bind]
      generalize (if insideBall eps inc (d q v) = true then acc ++ [v] else acc) = acc'
      by_cases h1 : d q v ≤ r
      · simp only [h1, if_true]
        by_cases h2 : pyAbs (d q v - r) ≤ eps
        · simp only [h2, if_true]
          obtain ⟨l1, q1, k1⟩ := ihl fuel ((vpMid s e, e) :: rest) acc'
          rcases k1 with k1 | ⟨f1, c1, k1⟩
          · exact ⟨_, q1.left.cons, .inl (by rw [k1])⟩
          · obtain ⟨l2, q2, k2⟩ := ihr f1 rest c1
            refine ⟨_, (q1.append q2).cons, ?_⟩
            rcases k2 with k2 | ⟨f2, c2, k2⟩
            · exact .inl (by rw [k1, k2])
            · exact .inr ⟨f2, c2, by rw [k1, k2]; simp⟩
        · simp only [h2, if_false]
          obtain ⟨l1, q1, k1⟩ := ihl fuel rest acc'
          refine ⟨_, q1.left.cons, ?_⟩
          rcases k1 with k1 | ⟨f1, c1, k1⟩
          · exact .inl (by rw [k1])
          · exact .inr ⟨f1, c1, by rw [k1]; simp⟩
      · simp only [h1, if_false]
        by_cases h2 : pyAbs (d q v - r) ≤ eps
        · simp only [h2, if_true]
          obtain ⟨l1, q1, k1⟩ := ihr fuel ((s + 1, vpMid s e) :: rest) acc'
          rcases k1 with k1 | ⟨f1, c1, k1⟩
          · exact ⟨_, q1.right.cons, .inl (by rw [k1])⟩
          · obtain ⟨l2, q2, k2⟩ := ihl f1 rest c1
            refine ⟨_, (q1.swap q2).cons, ?_⟩
            rcases k2 with k2 | ⟨f2, c2, k2⟩
            · exact .inl (by rw [k1, k2])
            · exact .inr ⟨f2, c2, by rw [k1, k2]; simp⟩
        · simp only [h2, if_false]
          obtain ⟨l1, q1, k1⟩ := ihr fuel rest acc'
          refine ⟨_, q1.right.cons, ?_⟩
          rcases k1 with k1 | ⟨f1, c1, k1⟩
          · exact .inl (by rw [k1])
          · exact .inr ⟨f1, c1, by rw [k1]; simp⟩

theorem trace_flatBallSearchC {p : VPParams R} {dt : T → T → R} (d : T → T → R)
    {a : VPArray T R} (h : a.WF) (t : FlatTree p dt a 0 a.dataset.length) (q : T) (eps : R)
    (inc : Bool) : QueriesOnce q a.dataset ((flatBallSearchC a q eps inc).trace d) := by
  obtain ⟨l, hl, k⟩ := trace_flatBallLoopC d h q eps inc t (2 * a.size + 2) [] []
  have hl' := hl.mono h.pts_all.subperm
  unfold flatBallSearchC
  rw [show a.size = a.dataset.length from rfl] at k ⊢
  rcases k with k | ⟨f, c, k⟩
  · rw [k]; exact hl'
  · rw [k]
    have : (flatBallLoopC a q eps inc f [] c).trace d = [] := by cases f <;> rfl
    rw [this, List.append_nil]; exact hl'

theorem trace_knnProcessC_bind (d : T → T → R) (q : T) (k : ℕ) (st : KnnState T R) (x : T)
    (f : R × KnnState T R → Calls T R β) :
    (knnProcessC q k st x >>= f).trace d = (q, x) ::
      (match knnProcess d q k st x with
        | .ok o => (f o).trace d
        | .error _ => []) := by
  rw [trace_bind, answer_knnProcessC]
  have : (knnProcessC q k st x).trace d = [(q, x)] := by
    simp only [knnProcessC, lift_eq, trace_metric_bind]; rfl
  rw [this]
  cases knnProcess d q k st x <;> rfl

theorem trace_knnProcessAllC (d : T → T → R) (q : T) (k : ℕ) (xs : List T) :
    ∀ st, QueriesOnce q xs ((knnProcessAllC q k xs st).trace d) := by
  induction xs with
  | nil => intro st; exact .nil _ _
  | cons x xs ih =>
    intro st
    simp only [knnProcessAllC]
    rw [trace_knnProcessC_bind]
    cases knnProcess d q k st x with
    | error _ => exact (QueriesOnce.nil _ _).cons
    | ok o => exact (ih o.2).cons

theorem trace_flatKnnLoopC {p : VPParams R} {dt : T → T → R} (d : T → T → R)
    {a : VPArray T R} (h : a.WF) (q : T) (k : ℕ) {s e : ℕ} (t : FlatTree p dt a s e) :
    ∀ fuel thr act rest st, ∃ l, QueriesOnce q (a.pts s e) l ∧
      ((flatKnnLoopC a q k fuel ((s, e, thr, act) :: rest) st).trace d = l ∨
        ∃ fuel' st', (flatKnnLoopC a q k fuel ((s, e, thr, act) :: rest) st).trace d =
          l ++ (flatKnnLoopC a q k fuel' rest st').trace d) := by
  induction t with
  | @leaf s e hs hse he ht _ =>
    intro fuel thr act rest st
    cases fuel with
    | zero => exact ⟨[], .nil _ _, .inl rfl⟩
    | succ fuel =>
      obtain ⟨r, hr⟩ := h.getDistance hs
      obtain ⟨v, hv, _⟩ := h.getPoint hs
      simp only [flatKnnLoopC, lift_eq, hr, hv, trace_done_bind, WF.isTerminal ht, if_true,
        h.getPoints]
      refine ⟨_, trace_knnProcessAllC d q k (a.pts s e) st, ?_⟩
      cases ha : (knnProcessAllC q k (a.pts s e) st).answer d with
      | error _ => exact .inl (trace_bind_error ha _)
      | ok st' => exact .inr ⟨fuel, st', trace_bind_ok ha _⟩
  | @node s e v r hse he ht hv hr hy hl hh left right ihl ihr =>
    have hpts := FlatTree.pts_node h hse he hv
    have hrd : a.getDistance s = .ok r := getItem_ok hr
    have hvp := getPoint_of_pt hv
    have hpre : ∀ fuel thr rest st, ∃ l, QueriesOnce q (a.pts s e) l ∧
      ((flatKnnLoopC a q k fuel ((s, e, thr, .pre) :: rest) st).trace d = l ∨
        ∃ fuel' st', (flatKnnLoopC a q k fuel ((s, e, thr, .pre) :: rest) st).trace d =
          l ++ (flatKnnLoopC a q k fuel' rest st').trace d) := by
      intro fuel thr rest st
      cases fuel with
      | zero => exact ⟨[], .nil _ _, .inl rfl⟩
      | succ fuel =>
        rw [hpts]
        simp only [flatKnnLoopC, lift_eq, hrd, hvp, trace_done_bind, WF.isTerminal ht,
          Bool.false_eq_true, if_false, trace_knnProcessC_bind]
        cases knnProcess d q k st v with
        | error _ => exact ⟨_, (QueriesOnce.nil _ _).cons, .inl rfl⟩
        | ok o =>
          obtain ⟨dist, st1⟩ := o
          simp only
          by_cases h1 : dist ≤ r
          · simp only [h1, if_true]
            obtain ⟨l1, q1, k1⟩ := ihl fuel 0 .pre
              ((vpMid s e, e, pyAbs (r - dist), .post) :: rest) st1
            rcases k1 with k1 | ⟨f1, c1, k1⟩
            · exact ⟨_, q1.left.cons, .inl (by rw [k1])⟩
            · obtain ⟨l2, q2, k2⟩ := ihr f1 (pyAbs (r - dist)) .post rest c1
              refine ⟨_, (q1.append q2).cons, ?_⟩
              rcases k2 with k2 | ⟨f2, c2, k2⟩
              · exact .inl (by rw [k1, k2])
              · exact .inr ⟨f2, c2, by rw [k1, k2]; simp⟩
          · simp only [h1, if_false]
            obtain ⟨l1, q1, k1⟩ := ihr fuel 0 .pre
              ((s + 1, vpMid s e, pyAbs (r - dist), .post) :: rest) st1
            rcases k1 with k1 | ⟨f1, c1, k1⟩
            · exact ⟨_, q1.right.cons, .inl (by rw [k1])⟩
            · obtain ⟨l2, q2, k2⟩ := ihl f1 (pyAbs (r - dist)) .post rest c1
              refine ⟨_, (q1.swap q2).cons, ?_⟩
              rcases k2 with k2 | ⟨f2, c2, k2⟩
              · exact .inl (by rw [k1, k2])
              · exact .inr ⟨f2, c2, by rw [k1, k2]; simp⟩
    intro fuel thr act rest st
    cases act with
    | pre => exact hpre fuel thr rest st
    | post =>
      cases fuel with
      | zero => exact ⟨[], .nil _ _, .inl rfl⟩
      | succ fuel =>
        simp only [flatKnnLoopC, lift_eq, hrd, hvp, trace_done_bind, WF.isTerminal ht,
          Bool.false_eq_true, if_false]
        split
        · exact hpre fuel 0 rest st
        · exact ⟨[], .nil _ _, .inr ⟨fuel, st, rfl⟩⟩

theorem trace_flatKnnSearchC {p : VPParams R} {dt : T → T → R} (d : T → T → R)
    {a : VPArray T R} (h : a.WF) (t : FlatTree p dt a 0 a.dataset.length) (q : T) (k : ℕ) :
    QueriesOnce q a.dataset ((flatKnnSearchC a q k).trace d) := by
  obtain ⟨l, hl, kk⟩ := trace_flatKnnLoopC d h q k t (3 * a.size + 3) 0 .pre []
    ⟨none, MaxHeap.init⟩
  have hl' := hl.mono h.pts_all.subperm
  unfold flatKnnSearchC
  rw [trace_bind_quiet (fun _ => rfl)]
  rw [show a.size = a.dataset.length from rfl] at kk ⊢
  rcases kk with kk | ⟨f, c, kk⟩
  · rw [kk]; exact hl'
  · rw [kk]
    have : (flatKnnLoopC a q k f [] c).trace d = [] := by cases f <;> rfl
    rw [this, List.append_nil]; exact hl'

theorem trace_hierBallRecC (d : T → T → R) {a : VPArray T R} (h : a.WF) (q : T) (eps : R)
    (inc : Bool) (t : VPNode T R) :
    ∀ acc, QueriesOnce q (t.pts a) ((hierBallRecC a q eps inc t acc).trace d) := by
  induction t with
  | leaf s e =>
    intro acc
    simp only [hierBallRecC, lift_eq, h.getPoints, trace_done_bind]
    rw [trace_bind_quiet (fun _ => rfl), trace_ballLeafC]
    exact queriesOnce_map _ _
  | node r v l rt ihl ihr =>
    intro acc
    simp only [hierBallRecC, trace_metric_bind, VPNode.pts]
    generalize (if insideBall eps inc (d v q) = true then acc ++ [v] else acc) = acc'
    apply QueriesOnce.cons'
    by_cases h1 : d v q ≤ r
    · simp only [h1, if_true]
      rw [trace_bind]
      cases (hierBallRecC a q eps inc l acc').answer d with
      | error _ => simp only [List.append_nil]; exact (ihl _).left
      | ok o =>
        simp only
        by_cases h2 : pyAbs (d v q - r) ≤ eps
        · simp only [h2, if_true]; exact (ihl _).append (ihr _)
        · simp only [h2, if_false, pure_trace, List.append_nil]; exact (ihl _).left
    · simp only [h1, if_false]
      rw [trace_bind]
      cases (hierBallRecC a q eps inc rt acc').answer d with
      | error _ => simp only [List.append_nil]; exact (ihr _).right
      | ok o =>
        simp only
        by_cases h2 : pyAbs (d v q - r) ≤ eps
        · simp only [h2, if_true]; exact (ihr _).swap (ihl _)
        · simp only [h2, if_false, pure_trace, List.append_nil]; exact (ihr _).right

theorem trace_hierKnnLeafC (d : T → T → R) (q : T) (k : ℕ) (xs : List T) :
    ∀ hp, QueriesOnce q xs ((hierKnnLeafC q k xs hp).trace d) := by
  induction xs with
  | nil => intro hp; exact .nil _ _
  | cons x xs ih =>
    intro hp
    simp only [hierKnnLeafC, lift_eq, trace_metric_bind]
    apply QueriesOnce.cons
    cases hierKnnConsider k hp (d q x) x with
    | error _ => exact .nil _ _
    | ok hp' => exact ih hp'

theorem trace_hierKnnRecC (d : T → T → R) {a : VPArray T R} (h : a.WF) (q : T) (k : ℕ)
    (t : VPNode T R) :
    ∀ hp, QueriesOnce q (t.pts a) ((hierKnnRecC a q k t hp).trace d) := by
  induction t with
  | leaf s e =>
    intro hp
    simp only [hierKnnRecC, lift_eq, h.getPoints, trace_done_bind, VPNode.pts]
    exact trace_hierKnnLeafC d q k _ _
  | node r v l rt ihl ihr =>
    intro hp
    simp only [hierKnnRecC, lift_eq, trace_metric_bind, VPNode.pts]
    apply QueriesOnce.cons'
    cases hierKnnConsider k hp (d v q) v with
    | error _ => exact .nil _ _
    | ok hp' =>
      simp only [trace_done_bind]
      by_cases h1 : d v q ≤ r
      · simp only [h1, if_true]
        rw [trace_bind]
        cases (hierKnnRecC a q k l hp').answer d with
        | error _ => simp only [List.append_nil]; exact (ihl _).left
        | ok o =>
          simp only
          cases hierKnnRadius k o with
          | error _ => simp only [trace_error_bind, List.append_nil]; exact (ihl _).left
          | ok ro =>
            simp only [trace_done_bind]
            split
            · exact (ihl _).append (ihr _)
            · simp only [pure_trace, List.append_nil]; exact (ihl _).left
      · simp only [h1, if_false]
        rw [trace_bind]
        cases (hierKnnRecC a q k rt hp').answer d with
        | error _ => simp only [List.append_nil]; exact (ihr _).right
        | ok o =>
          simp only
          cases hierKnnRadius k o with
          | error _ => simp only [trace_error_bind, List.append_nil]; exact (ihr _).right
          | ok ro =>
            simp only [trace_done_bind]
            split
            · exact (ihr _).swap (ihl _)
            · simp only [pure_trace, List.append_nil]; exact (ihr _).right

theorem trace_hierKnnSearchC (d : T → T → R) {a : VPArray T R} (h : a.WF) (t : VPNode T R)
    (q : T) (k : ℕ) : QueriesOnce q (t.pts a) ((hierKnnSearchC t a q k).trace d) := by
  unfold hierKnnSearchC
  rw [trace_bind_quiet (fun _ => rfl)]
  exact trace_hierKnnRecC d h q k t _

end search

end Verif

import Verif.Proof.CallsSearch

set_option autoImplicit false
set_option linter.unusedSectionVars false

namespace Verif

variable {T R E α β : Type}

open Calls VPArray

namespace Calls

theorem run_ok {d : T → T → R} {dE : T → T → Except E R} (h : Extends d dE)
    (p : Calls T R α) (hp : ∀ c ∈ p.trace d, ∃ r, dE c.1 c.2 = .ok r) :
    p.run dE = (p.answer d).mapError .inl := by
  induction p with
  | done r => cases r <;> rfl
  | call x y k ih =>
    obtain ⟨r, hr⟩ := hp (x, y) List.mem_cons_self
    have e1 : (Calls.call x y k).run dE = (k r).run dE := by
      simp only [Calls.run, hr]
    have e2 := h x y r hr
    rw [e1, e2]
    exact ih (d x y) fun c hc => hp c (List.mem_cons_of_mem _ hc)

theorem run_raises {d : T → T → R} {dE : T → T → Except E R} (h : Extends d dE)
    (p : Calls T R α) {c : T × T} (hc : c ∈ p.trace d) {e : E} (he : dE c.1 c.2 = .error e) :
    ∃ pre c' post e', p.trace d = pre ++ c' :: post ∧
      (∀ b ∈ pre, ∃ r, dE b.1 b.2 = .ok r) ∧ dE c'.1 c'.2 = .error e' ∧
      p.run dE = .error (.inr e') := by
  induction p with
  | done r => cases hc
  | call x y k ih =>
    cases hd : dE x y with
    | error e0 =>
      refine ⟨[], (x, y), _, e0, rfl, fun b hb => (nomatch hb), hd, ?_⟩
      simp only [Calls.run, hd]
    | ok r =>
      have e1 : (Calls.call x y k).run dE = (k r).run dE := by
        simp only [Calls.run, hd]
      have e2 := h x y r hd
      rcases List.mem_cons.mp hc with rfl | hc
      · exact absurd (hd.symm.trans he) (by simp)
      · obtain ⟨pre, c', post, e', h1, h2, h3, h4⟩ := ih (d x y) hc
        refine ⟨(x, y) :: pre, c', post, e', ?_, ?_, h3, ?_⟩
        · show (x, y) :: (k (d x y)).trace d = _
          rw [h1]; rfl
        · intro b hb
          rcases List.mem_cons.mp hb with rfl | hb
          · exact ⟨r, hd⟩
          · exact h2 b hb
        · rw [e1, e2]; exact h4

end Calls

/-- One of the calls has the argument `z`. -/
def Touches (z : T) (l : List (T × T)) : Prop := ∃ c ∈ l, c.1 = z ∨ c.2 = z

theorem Touches.right {z : T} {l l' : List (T × T)} (h : Touches z l') : Touches z (l ++ l') := by
  obtain ⟨c, hc, h⟩ := h
  exact ⟨c, List.mem_append_right _ hc, h⟩

theorem Touches.left {z : T} {l l' : List (T × T)} (h : Touches z l) : Touches z (l ++ l') := by
  obtain ⟨c, hc, h⟩ := h
  exact ⟨c, List.mem_append_left _ hc, h⟩

theorem Touches.bind {d : T → T → R} {p : Calls T R α} {z : T} (h : Touches z (p.trace d))
    (f : α → Calls T R β) : Touches z ((p >>= f).trace d) := by
  rw [trace_bind]; exact h.left

theorem touches_map {q z : T} {xs : List T} (h : z ∈ xs) :
    Touches z (xs.map fun x => (q, x)) :=
  ⟨(q, z), List.mem_map.mpr ⟨z, h, rfl⟩, .inr rfl⟩

theorem Touches.map {S : Type} {f : T → S} {z : T} {l : List (T × T)} (h : Touches z l) :
    Touches (f z) (l.map fun c => (f c.1, f c.2)) := by
  obtain ⟨c, hc, h⟩ := h
  exact ⟨(f c.1, f c.2), List.mem_map.mpr ⟨c, hc, rfl⟩,
    h.elim (fun h => .inl (congrArg f h)) (fun h => .inr (congrArg f h))⟩

section build
variable [LE R] [LT R] [DecidableLE R] [DecidableLT R] [StrictLT R] [Zero R]

theorem trace_updateLoopC_all (d : T → T → R) (v : T) (flag : Option Bool) (e : ℕ) :
    ∀ (cnt i : ℕ) (a : VPArray T R), a.WF → flag.isSome = a.terminal.isSome →
      e ≤ a.dataset.length → i + cnt = e →
      (updateLoopC v flag cnt i a).trace d = (a.pts i e).map fun x => (v, x) := by
  intro cnt
  induction cnt with
  | zero =>
    intro i a _ _ _ hi
    rw [a.pts_eq_nil (by omega)]; rfl
  | succ cnt ih =>
    intro i a h hf he hi
    obtain ⟨x, hx, px⟩ := h.getPoint (i := i) (by omega)
    obtain ⟨a1, e1, s1, _, i1, t1⟩ := h.setDistance (s := i) (e := e) (i := i) (by omega)
      (by omega) (d v x)
    obtain ⟨a2, e2, s2, _, i2⟩ := writeFlag_ok s1.wf (flag := flag) (by rw [hf, t1])
      (s := i) (e := e) (i := i) (by omega) (by rw [s1.size]; omega)
    have hp : a2.pts (i + 1) e = a.pts (i + 1) e := by
      unfold VPArray.pts; rw [i2, i1, s2.data, s1.data]
    simp only [updateLoopC, lift_eq, hx, trace_done_bind, trace_metric_bind, e1, e2]
    rw [ih (i + 1) a2 s2.wf (by rw [s2.kind, t1, hf]) (by rw [s2.size, s1.size]; exact he)
      (by omega), hp, a.pts_cons (by omega) (by rw [h.idx_len]; exact he) px]
    rfl

theorem touches_updateC (d : T → T → R) (ρ : ℕ → ℕ) (pv : String) (st : BuildState T R)
    (h : st.arr.WF) (hn : 2 ≤ st.arr.dataset.length) {z : T} (hz : z ∈ st.arr.dataset) :
    Touches z ((updateC ρ pv 0 st.arr.dataset.length st).trace d) := by
  obtain ⟨st1, e1, s1⟩ := pivot_ok d ρ pv st h (s := 0) (le_refl st.arr.dataset.length)
  have hsz := s1.size
  obtain ⟨v, e2, p2⟩ := s1.wf.getPoint (i := 0) (by omega)
  obtain ⟨f, e3, hf⟩ := readFlag_ok s1.wf (i := 0) (by omega)
  have hall := trace_updateLoopC_all d v f st.arr.dataset.length
    (st.arr.dataset.length - (0 + 1)) (0 + 1) st1.arr s1.wf hf (by omega) (by omega)
  unfold updateC
  rw [trace_bind_ok (by rw [answer_pivotC]; exact e1)]
  apply Touches.right
  simp only [lift_eq, e2, e3, trace_done_bind]
  rw [trace_bind_quiet (fun _ => rfl), hall]
  have hc := st1.arr.pts_cons (s := 0) (e := st.arr.dataset.length) (by omega)
    (by rw [s1.wf.idx_len]; omega) p2
  have hmem : z ∈ st1.arr.pts 0 st.arr.dataset.length := by
    rw [← hsz]
    exact (s1.wf.pts_all.mem_iff).mpr (by rw [s1.data]; exact hz)
  rw [hc] at hmem
  rcases List.mem_cons.mp hmem with rfl | hmem
  · have hl : (st1.arr.pts 0 st.arr.dataset.length).length = st.arr.dataset.length := by
      have := s1.wf.pts_all.length_eq
      rw [hsz] at this; exact this
    rw [hc, List.length_cons] at hl
    cases hr : st1.arr.pts (0 + 1) st.arr.dataset.length with
    | nil => rw [hr] at hl; simp at hl; omega
    | cons y ys => exact ⟨(z, y), List.mem_cons_self, .inl rfl⟩
  · exact touches_map hmem

end build

section
variable [LE R] [LT R] [DecidableLE R] [DecidableLT R] [StrictLT R] [Zero R]

theorem touches_flatBuildC (d : T → T → R) (ρ : ℕ → ℕ) (p : VPParams R) (X : List T)
    (hn : 2 ≤ X.length) {z : T} (hz : z ∈ X) : Touches z ((flatBuildC ρ p X).trace d) := by
  unfold flatBuildC
  simp only
  have hs : (flatInit X : VPArray T R).size = X.length := rfl
  rw [if_pos (by rw [hs]; omega)]
  apply Touches.bind
  simp only [flatBuildLoopC]
  exact Touches.bind (touches_updateC d ρ p.pivoting ⟨flatInit X, 0⟩ (flatInit_wf X) hn hz) _

theorem touches_hierBuildC (d : T → T → R) (ρ : ℕ → ℕ) (p : VPParams R)
    (X : List T) (hcap : 1 ≤ p.leafCapacity) (hn : p.leafCapacity < X.length) {z : T}
    (hz : z ∈ X) : Touches z ((hierBuildC ρ p X).trace d) := by
  unfold hierBuildC
  simp only
  have hs : (hierInit X : VPArray T R).size = X.length := rfl
  rw [if_pos (by rw [hs]; omega)]
  apply Touches.bind
  unfold hierBuildRecC
  rw [if_neg (by rw [hs]; omega)]
  exact Touches.bind (touches_updateC d ρ p.pivoting ⟨hierInit X, 0⟩ (hierInit_wf X)
    (by show 2 ≤ X.length; omega) hz) _

end

section search
variable [LE R] [LT R] [DecidableLE R] [DecidableLT R] [StrictLT R] [Zero R] [Neg R] [Sub R]

/-- Every entry is the argument of a call of the construction, or every search calls the
distance function with every entry. -/
theorem touches_ball (d : T → T → R) (X : List T) (kind : String) (p : VPParams R)
    (hcap : 1 ≤ p.leafCapacity) (ρ : ℕ → ℕ) {t : VPTreeC T R}
    (ht : (VPTreeC.build X kind p ρ).answer d = .ok t) {z : T} (hz : z ∈ X) :
    Touches z ((VPTreeC.build X kind p ρ).trace d) ∨
      ∀ q eps inc, Touches z ((t.ballSearch q eps inc).trace d) := by
  have hX : X ≠ [] := by rintro rfl; cases hz
  unfold VPTreeC.build at ht ⊢
  split at ht
  · rename_i hk
    rw [if_pos hk]
    rw [trace_bind_quiet (fun _ => rfl)]
    by_cases hn : 2 ≤ X.length
    · exact .inl (touches_flatBuildC d ρ p X hn hz)
    · right
      intro q eps inc
      rw [answer_bind, answer_flatBuildC] at ht
      obtain ⟨a, e, hw, hd, hf⟩ := flatBuild_ok d ρ p hcap X
      rw [e] at ht
      cases ht
      have hf := hf hX
      have h1 : X.length = 1 := by
        have := List.length_pos_iff.mpr hX; omega
      have hall := hw.pts_all
      rw [hd, h1] at hall
      rw [h1] at hf
      have hz' : z ∈ a.pts 0 1 := hall.mem_iff.mpr hz
      cases hf with
      | node _ _ hse => omega
      | leaf hs hse he htm _ =>
        obtain ⟨r, hr⟩ := hw.getDistance hs
        obtain ⟨v, hv, _⟩ := hw.getPoint hs
        show Touches z ((flatBallSearchC a q eps inc).trace d)
        have hsz : a.size = 1 := by unfold VPArray.size; rw [hd, h1]
        simp only [flatBallSearchC, hsz, flatBallLoopC, lift_eq, hr, hv, trace_done_bind,
          WF.isTerminal htm, if_true, hw.getPoints]
        apply Touches.bind
        rw [trace_ballLeafC]
        exact touches_map hz'
  · rename_i hk
    rw [if_neg hk]
    split at ht
    · rename_i hk2
      rw [if_pos hk2]
      rw [trace_bind_quiet (fun _ => rfl)]
      by_cases hn : p.leafCapacity < X.length
      · exact .inl (touches_hierBuildC d ρ p X hcap hn hz)
      · right
        intro q eps inc
        rw [answer_bind, answer_hierBuildC] at ht
        have hb : hierBuild d ρ p X = .ok (.leaf 0 X.length, hierInit X) := by
          unfold hierBuild
          simp only
          have hs : (hierInit X : VPArray T R).size = X.length := rfl
          rw [hs, if_pos (List.length_pos_iff.mpr hX)]
          unfold hierBuildRec
          rw [if_pos (by omega)]
          rfl
        rw [hb] at ht
        cases ht
        show Touches z ((hierBallSearchC (.leaf 0 X.length) (hierInit X) q eps inc).trace d)
        have hw := hierInit_wf (R := R) X
        simp only [hierBallSearchC, hierBallRecC, lift_eq, hw.getPoints, trace_done_bind]
        apply Touches.bind
        rw [trace_ballLeafC]
        exact touches_map (hw.pts_all.mem_iff.mpr hz)
    · cases ht

theorem touches_proximity {d : T → T → R} {search : T → Calls T R (List ℕ)} {z : T}
    (h : ∀ x, Touches z ((search x).trace d)) {X : List T} (hX : X ≠ []) :
    Touches z ((proximityLoopC search 0 X []).trace d) := by
  cases X with
  | nil => exact absurd rfl hX
  | cons x X =>
    unfold proximityLoopC
    rw [if_neg (by simp)]
    exact Touches.bind (h x) _

theorem mem_enumerate_of_mem {X : List T} {z : T} (hz : z ∈ X) : ∃ i, (i, z) ∈ enumerate X := by
  obtain ⟨j, hj⟩ := List.getElem?_of_mem hz
  exact ⟨(j : ℤ), (mem_enumerate X _).mpr ⟨j, rfl, hj⟩⟩

variable [DecidableEq R]

theorem touches_ballApplyC (d : T → T → R) (P : BallParams T R) (hk : IsKind P.kind)
    (hcap : 1 ≤ P.leafCapacity) (ρ : ℕ → ℕ) (X : List T) {z : T} (hz : z ∈ X) :
    Touches z ((ballApplyC P ρ X).trace d) := by
  obtain ⟨i, hi⟩ := mem_enumerate_of_mem hz
  have hX : X ≠ [] := by rintro rfl; cases hz
  have hb := answer_build (pullback snd d) (enumerate X) P.kind
    ⟨P.leafCapacity, numOr P.leafRadius P.radius, P.pivoting⟩ ρ
  cases ha : (VPTreeC.build (enumerate X) P.kind
    ⟨P.leafCapacity, numOr P.leafRadius P.radius, P.pivoting⟩ ρ).answer (pullback snd d) with
  | error e =>
    exfalso
    rw [ha] at hb
    unfold VPTree.build at hb
    rcases hk with hk | hk
    · rw [if_pos hk] at hb
      obtain ⟨a, e1, _⟩ := flatBuild_ok (pullback snd d) ρ
        ⟨P.leafCapacity, numOr P.leafRadius P.radius, P.pivoting⟩ hcap (enumerate X)
      rw [e1] at hb; cases hb
    · rw [if_neg (by rw [hk]; decide), if_pos hk] at hb
      obtain ⟨t, a, e1, _⟩ := hierBuild_ok (pullback snd d) ρ
        ⟨P.leafCapacity, numOr P.leafRadius P.radius, P.pivoting⟩ hcap (enumerate X)
      rw [e1] at hb; cases hb
  | ok t =>
    unfold ballApplyC ballFitC
    rw [trace_bind_ok (by rw [pull_answer]; exact ha)]
    rcases touches_ball (pullback snd d) (enumerate X) P.kind
      ⟨P.leafCapacity, numOr P.leafRadius P.radius, P.pivoting⟩ hcap ρ ha hi with h | h
    · apply Touches.left
      rw [pull_trace]
      exact h.map (f := snd)
    · apply Touches.right
      apply touches_proximity _ hX
      intro x
      unfold ballSearchC
      apply Touches.bind
      rw [pull_trace]
      exact (h (-1, x) P.radius false).map (f := snd)

end search

theorem trace_hierKnnLeafC_all [LE R] [LT R] [DecidableLE R] [DecidableLT R] [Zero R] [Neg R]
    [Sub R] (d : T → T → R) (q : T) (k : ℕ) (xs : List T) :
    ∀ (h h' : MaxHeap R T), hierKnnLeaf d q k xs h = .ok h' →
      (hierKnnLeafC q k xs h).trace d = xs.map fun x => (q, x) := by
  induction xs with
  | nil => intros; rfl
  | cons x xs ih =>
    intro h h' hh
    simp only [hierKnnLeaf] at hh
    obtain ⟨h1, e1, hh⟩ := bind_eq_ok.mp hh
    simp only [hierKnnLeafC, lift_eq, trace_metric_bind, e1, trace_done_bind, List.map_cons]
    rw [ih h1 h' hh]

section knn
variable [LinearOrder R] [Zero R] [Neg R] [Sub R]

theorem touches_knn (d : T → T → R) (X : List T) (kind : String) (p : VPParams R)
    (hcap : 1 ≤ p.leafCapacity) (ρ : ℕ → ℕ) {t : VPTreeC T R}
    (ht : (VPTreeC.build X kind p ρ).answer d = .ok t) {z : T} (hz : z ∈ X) :
    Touches z ((VPTreeC.build X kind p ρ).trace d) ∨
      ∀ q k, Touches z ((t.knnSearch q k).trace d) := by
  have hX : X ≠ [] := by rintro rfl; cases hz
  unfold VPTreeC.build at ht ⊢
  split at ht
  · rename_i hk
    rw [if_pos hk]
    rw [trace_bind_quiet (fun _ => rfl)]
    by_cases hn : 2 ≤ X.length
    · exact .inl (touches_flatBuildC d ρ p X hn hz)
    · right
      intro q k
      rw [answer_bind, answer_flatBuildC] at ht
      obtain ⟨a, e, hw, hd, hf⟩ := flatBuild_ok d ρ p hcap X
      rw [e] at ht
      cases ht
      have hf := hf hX
      have h1 : X.length = 1 := by
        have := List.length_pos_iff.mpr hX; omega
      have hall := hw.pts_all
      rw [hd, h1] at hall
      rw [h1] at hf
      have hpz : a.pts 0 1 = [z] := by
        cases X with
        | nil => exact absurd rfl hX
        | cons x X =>
          have hX0 : X = [] := List.length_eq_zero_iff.mp (by simpa using h1)
          subst hX0
          rw [List.mem_singleton.mp hz]
          exact List.perm_singleton.mp hall
      cases hf with
      | node _ _ hse => omega
      | leaf hs hse he htm _ =>
        obtain ⟨r, hr⟩ := hw.getDistance hs
        obtain ⟨v, hv, _⟩ := hw.getPoint hs
        show Touches z ((flatKnnSearchC a q k).trace d)
        have hsz : a.size = 1 := by unfold VPArray.size; rw [hd, h1]
        unfold flatKnnSearchC
        apply Touches.bind
        simp only [hsz, flatKnnLoopC, lift_eq, hr, hv, trace_done_bind,
          WF.isTerminal htm, if_true, hw.getPoints, hpz, knnProcessAllC]
        apply Touches.bind
        rw [trace_knnProcessC_bind]
        exact ⟨(q, z), List.mem_cons_self, .inr rfl⟩
  · rename_i hk
    rw [if_neg hk]
    split at ht
    · rename_i hk2
      rw [if_pos hk2]
      rw [trace_bind_quiet (fun _ => rfl)]
      by_cases hn : p.leafCapacity < X.length
      · exact .inl (touches_hierBuildC d ρ p X hcap hn hz)
      · right
        intro q k
        rw [answer_bind, answer_hierBuildC] at ht
        have hb : hierBuild d ρ p X = .ok (.leaf 0 X.length, hierInit X) := by
          unfold hierBuild
          simp only
          have hs : (hierInit X : VPArray T R).size = X.length := rfl
          rw [hs, if_pos (List.length_pos_iff.mpr hX)]
          unfold hierBuildRec
          rw [if_pos (by omega)]
          rfl
        rw [hb] at ht
        cases ht
        show Touches z ((hierKnnSearchC (.leaf 0 X.length) (hierInit X) q k).trace d)
        have hw := hierInit_wf (R := R) X
        unfold hierKnnSearchC
        apply Touches.bind
        simp only [hierKnnRecC, lift_eq, hw.getPoints, trace_done_bind]
        obtain ⟨h', e', _⟩ := hierKnnLeaf_ok d q (L := fun r x => r ≤ d q x) ⟨fun _ _ h => h, fun _ _ _ h h' => h.trans h'⟩ k
          ((hierInit X : VPArray T R).pts 0 X.length) [] MaxHeap.init (KInv.nil _ _ _)
        rw [trace_hierKnnLeafC_all d q k _ _ _ e']
        exact touches_map (hw.pts_all.mem_iff.mpr hz)
    · cases ht

theorem touches_knnApplyC (d : T → T → R) (P : KnnParams T R) (hk : IsKind P.kind)
    (hn : 1 ≤ P.neighbors) (ρ : ℕ → ℕ) (X : List T) {z : T} (hz : z ∈ X) :
    Touches z ((knnApplyC P ρ X).trace d) := by
  obtain ⟨i, hi⟩ := mem_enumerate_of_mem hz
  have hX : X ≠ [] := by rintro rfl; cases hz
  have hcap := numOr_pos P.leafCapacity P.neighbors hn
  have hb := answer_build (pullback snd d) (enumerate X) P.kind
    ⟨numOr P.leafCapacity P.neighbors, P.leafRadius, P.pivoting⟩ ρ
  cases ha : (VPTreeC.build (enumerate X) P.kind
    ⟨numOr P.leafCapacity P.neighbors, P.leafRadius, P.pivoting⟩ ρ).answer (pullback snd d) with
  | error e =>
    exfalso
    rw [ha] at hb
    unfold VPTree.build at hb
    rcases hk with hk | hk
    · rw [if_pos hk] at hb
      obtain ⟨a, e1, _⟩ := flatBuild_ok (pullback snd d) ρ
        ⟨numOr P.leafCapacity P.neighbors, P.leafRadius, P.pivoting⟩ hcap (enumerate X)
      rw [e1] at hb; cases hb
    · rw [if_neg (by rw [hk]; decide), if_pos hk] at hb
      obtain ⟨t, a, e1, _⟩ := hierBuild_ok (pullback snd d) ρ
        ⟨numOr P.leafCapacity P.neighbors, P.leafRadius, P.pivoting⟩ hcap (enumerate X)
      rw [e1] at hb; cases hb
  | ok t =>
    unfold knnApplyC knnFitC
    rw [trace_bind_ok (by rw [pull_answer]; exact ha)]
    rcases touches_knn (pullback snd d) (enumerate X) P.kind
      ⟨numOr P.leafCapacity P.neighbors, P.leafRadius, P.pivoting⟩ hcap ρ ha hi with h | h
    · apply Touches.left
      rw [pull_trace]
      exact h.map (f := snd)
    · apply Touches.right
      apply touches_proximity _ hX
      intro x
      unfold knnSearchC
      apply Touches.bind
      rw [pull_trace]
      exact (h (-1, x) P.neighbors).map (f := snd)

end knn

/-! ## The calls of the covers -/

theorem enumFrom_snd (X : List T) : ∀ i, (enumFrom i X).map snd = X := by
  induction X with
  | nil => intro i; rfl
  | cons x X ih => intro i; simp [enumFrom, snd, ih]

theorem enumerate_snd (X : List T) : (enumerate X).map snd = X := enumFrom_snd X 0

theorem QueriesOnce.pull {q : ℤ × T} {X : List T} {l : List ((ℤ × T) × (ℤ × T))}
    (h : QueriesOnce q (enumerate X) l) :
    QueriesOnce q.2 X (l.map fun c => (snd c.1, snd c.2)) := by
  obtain ⟨o, h1, h2⟩ := h
  refine ⟨o.map snd, ?_, ?_⟩
  · rw [← enumerate_snd X]
    obtain ⟨o', ho, hs⟩ := h1
    exact ⟨o'.map snd, ho.map snd, hs.map snd⟩
  · clear h1
    induction h2 with
    | nil => exact .nil
    | cons hr _ ih =>
      refine .cons ?_ ih
      rcases hr with rfl | rfl
      · exact .inl rfl
      · exact .inr rfl

theorem CallsWithin.pull {X : List T} {l : List ((ℤ × T) × (ℤ × T))}
    (h : CallsWithin (enumerate X) l) :
    CallsWithin X (l.map fun c => (snd c.1, snd c.2)) := by
  intro c hc
  obtain ⟨b, hb, rfl⟩ := List.mem_map.mp hc
  have hm : ∀ x ∈ enumerate X, snd x ∈ X := by
    intro x hx
    have := List.mem_map_of_mem (f := snd) hx
    rwa [enumerate_snd] at this
  exact ⟨hm _ (h b hb).1, hm _ (h b hb).2⟩

section covers
variable [LE R] [LT R] [DecidableLE R] [DecidableLT R] [Zero R] [Neg R] [Sub R]

theorem trace_build (d : T → T → R) (X : List T) (kind : String) (p : VPParams R)
    (hcap : 1 ≤ p.leafCapacity) (ρ : ℕ → ℕ) :
    ((VPTreeC.build X kind p ρ).trace d).length ≤ buildBudget p.pivoting X.length ∧
      CallsWithin X ((VPTreeC.build X kind p ρ).trace d) := by
  unfold VPTreeC.build
  split
  · rw [trace_bind_quiet (fun _ => rfl)]
    exact trace_flatBuildC d ρ p hcap X
  split
  · rw [trace_bind_quiet (fun _ => rfl)]
    exact trace_hierBuildC d ρ p hcap X
  · exact ⟨Nat.zero_le _, .nil _⟩

variable [StrictLT R]

/-- What the construction returns can be searched with any distance function. -/
theorem build_cases (dt : T → T → R) (X : List T) (kind : String) (p : VPParams R)
    (hcap : 1 ≤ p.leafCapacity) (ρ : ℕ → ℕ) {t : VPTreeC T R}
    (ht : (VPTreeC.build X kind p ρ).answer dt = .ok t) :
    (∃ a, t = .flat a ∧ a.WF ∧ a.dataset = X ∧ (X ≠ [] → FlatTree p dt a 0 X.length) ∧
        (X = [] → a = flatInit [])) ∨
      ∃ n a, t = .hier n a ∧ a.WF ∧ (n.pts a).Perm X := by
  unfold VPTreeC.build at ht
  split at ht
  · rw [answer_bind, answer_flatBuildC] at ht
    obtain ⟨a, e, hw, hd, hf⟩ := flatBuild_ok dt ρ p hcap X
    rw [e] at ht
    cases ht
    refine .inl ⟨a, rfl, hw, hd, hf, ?_⟩
    rintro rfl
    cases e; rfl
  split at ht
  · rw [answer_bind, answer_hierBuildC] at ht
    obtain ⟨n, a, e, hw, _, _, hp, _⟩ := hierBuild_ok dt ρ p hcap X
    rw [e] at ht
    cases ht
    exact .inr ⟨n, a, rfl, hw, hp⟩
  · cases ht

theorem trace_ballSearch (dt d : T → T → R) (X : List T) (kind : String) (p : VPParams R)
    (hcap : 1 ≤ p.leafCapacity) (ρ : ℕ → ℕ) {t : VPTreeC T R}
    (ht : (VPTreeC.build X kind p ρ).answer dt = .ok t) (q : T) (eps : R) (inc : Bool) :
    QueriesOnce q X ((t.ballSearch q eps inc).trace d) := by
  rcases build_cases dt X kind p hcap ρ ht with ⟨a, rfl, hw, hd, hf, h0⟩ | ⟨n, a, rfl, hw, hp⟩
  · by_cases hX : X = []
    · rw [h0 hX, hX]; exact .nil _ _
    · have := trace_flatBallSearchC d hw (by rw [hd]; exact hf hX) q eps inc
      rw [hd] at this; exact this
  · exact (trace_hierBallRecC d hw q eps inc n []).mono hp.subperm

theorem trace_knnSearch (dt d : T → T → R) (X : List T) (kind : String) (p : VPParams R)
    (hcap : 1 ≤ p.leafCapacity) (ρ : ℕ → ℕ) {t : VPTreeC T R}
    (ht : (VPTreeC.build X kind p ρ).answer dt = .ok t) (q : T) (k : ℕ) :
    QueriesOnce q X ((t.knnSearch q k).trace d) := by
  rcases build_cases dt X kind p hcap ρ ht with ⟨a, rfl, hw, hd, hf, h0⟩ | ⟨n, a, rfl, hw, hp⟩
  · by_cases hX : X = []
    · rw [h0 hX, hX]; exact .nil _ _
    · have := trace_flatKnnSearchC d hw (by rw [hd]; exact hf hX) q k
      rw [hd] at this; exact this
  · exact (trace_hierKnnSearchC d hw n q k).mono hp.subperm

omit [StrictLT R] [LE R] [LT R] [DecidableLE R] [DecidableLT R] [Zero R] [Neg R] [Sub R] in
theorem trace_proximityLoopC {d : T → T → R} {search : T → Calls T R (List ℕ)} {X : List T}
    (h : ∀ x, QueriesOnce x X ((search x).trace d)) (Y : List T) :
    Y ⊆ X → ∀ i cov, ((proximityLoopC search i Y cov).trace d).length ≤ Y.length * X.length ∧
      CallsWithin X ((proximityLoopC search i Y cov).trace d) := by
  induction Y with
  | nil => intro _ i cov; exact ⟨Nat.zero_le _, .nil _⟩
  | cons y Y ih =>
    intro hY i cov
    have hy : y ∈ X := hY List.mem_cons_self
    have hY' : Y ⊆ X := fun x hx => hY (List.mem_cons_of_mem _ hx)
    have hm : (y :: Y).length * X.length = Y.length * X.length + X.length := by
      rw [List.length_cons, Nat.succ_mul]
    unfold proximityLoopC
    split
    · obtain ⟨h1, h2⟩ := ih hY' (i + 1) cov
      exact ⟨by omega, h2⟩
    · rw [trace_bind]
      have h1 := (h y).length_le
      have h2 := (h y).within hy
      cases (search y).answer d with
      | error _ => simp only [List.append_nil]; exact ⟨by omega, h2⟩
      | ok o =>
        simp only
        rw [trace_bind_quiet (fun _ => rfl), List.length_append]
        obtain ⟨h3, h4⟩ := ih hY' (i + 1) (cov ++ o)
        exact ⟨by omega, h2.append h4⟩

variable [DecidableEq R]

theorem trace_ballApplyC (d : T → T → R) (P : BallParams T R) (hcap : 1 ≤ P.leafCapacity)
    (ρ : ℕ → ℕ) (X : List T) :
    ((ballApplyC P ρ X).trace d).length ≤
        buildBudget P.pivoting X.length + X.length * X.length ∧
      CallsWithin X ((ballApplyC P ρ X).trace d) := by
  have hb := trace_build (pullback snd d) (enumerate X) P.kind
    ⟨P.leafCapacity, numOr P.leafRadius P.radius, P.pivoting⟩ hcap ρ
  rw [enumerate_length] at hb
  have hb2 := hb.2.pull
  rw [← pull_trace] at hb2
  have hb1 : ((ballFitC P ρ X).trace d).length ≤ buildBudget P.pivoting X.length := by
    unfold ballFitC; rw [pull_trace, List.length_map]; exact hb.1
  unfold ballApplyC
  rw [trace_bind]
  cases ha : (ballFitC P ρ X).answer d with
  | error _ => simp only [List.append_nil]; exact ⟨by omega, hb2⟩
  | ok t =>
    simp only
    have hs : ∀ x, QueriesOnce x X ((ballSearchC P.radius t x).trace d) := by
      intro x
      unfold ballSearchC
      rw [trace_bind_quiet (fun _ => rfl), pull_trace]
      unfold ballFitC at ha
      rw [pull_answer] at ha
      exact (trace_ballSearch (pullback snd d) (pullback snd d) (enumerate X) P.kind _ hcap ρ ha
        (-1, x) P.radius false).pull
    obtain ⟨h1, h2⟩ := trace_proximityLoopC hs X (fun _ h => h) 0 []
    exact ⟨by rw [List.length_append]; omega, hb2.append h2⟩

theorem trace_knnApplyC (d : T → T → R) (P : KnnParams T R) (hn : 1 ≤ P.neighbors)
    (ρ : ℕ → ℕ) (X : List T) :
    ((knnApplyC P ρ X).trace d).length ≤
        buildBudget P.pivoting X.length + X.length * X.length ∧
      CallsWithin X ((knnApplyC P ρ X).trace d) := by
  have hcap := numOr_pos P.leafCapacity P.neighbors hn
  have hb := trace_build (pullback snd d) (enumerate X) P.kind
    ⟨numOr P.leafCapacity P.neighbors, P.leafRadius, P.pivoting⟩ hcap ρ
  rw [enumerate_length] at hb
  have hb2 := hb.2.pull
  rw [← pull_trace] at hb2
  have hb1 : ((knnFitC P ρ X).trace d).length ≤ buildBudget P.pivoting X.length := by
    unfold knnFitC; rw [pull_trace, List.length_map]; exact hb.1
  unfold knnApplyC
  rw [trace_bind]
  cases ha : (knnFitC P ρ X).answer d with
  | error _ => simp only [List.append_nil]; exact ⟨by omega, hb2⟩
  | ok t =>
    simp only
    have hs : ∀ x, QueriesOnce x X ((knnSearchC P.neighbors t x).trace d) := by
      intro x
      unfold knnSearchC
      rw [trace_bind_quiet (fun _ => rfl), pull_trace]
      unfold knnFitC at ha
      rw [pull_answer] at ha
      exact (trace_knnSearch (pullback snd d) (pullback snd d) (enumerate X) P.kind _ hcap ρ ha
        (-1, x) P.neighbors).pull
    obtain ⟨h1, h2⟩ := trace_proximityLoopC hs X (fun _ h => h) 0 []
    exact ⟨by rw [List.length_append]; omega, hb2.append h2⟩

end covers

end Verif

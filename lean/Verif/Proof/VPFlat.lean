import Verif.Model.VPFlat
import Verif.Proof.VPArray
import Verif.Spec.Metric
import Mathlib.Algebra.Order.Group.Abs

set_option linter.unusedSectionVars false

namespace Verif

variable {T R : Type}

open VPArray

/-- The vantage-point structure of the range `[s, e)` of a flat tree. -/
inductive FlatTree [LT R] (p : VPParams R) (d : T → T → R) (a : VPArray T R) : ℕ → ℕ → Prop
  | leaf {s e : ℕ} (hs : s < a.dataset.length) (hse : s ≤ e) (he : e ≤ a.dataset.length)
      (ht : a.term s = some true)
      (hc : e - s ≤ 2 * p.leafCapacity ∨ ∃ r, a.distances[s]? = some r ∧ ¬ p.leafRadius < r) :
      FlatTree p d a s e
  | node {s e : ℕ} (v : T) (r : R) (hse : s + 3 ≤ e) (he : e ≤ a.dataset.length)
      (ht : a.term s = some false) (hv : a.pt s = some v) (hr : a.distances[s]? = some r)
      (hy : ∃ y ∈ a.dataset, r = d v y)
      (hl : ∀ m x, s + 1 ≤ m → m < vpMid s e → a.pt m = some x → ¬ r < d v x)
      (hh : ∀ m x, vpMid s e ≤ m → m < e → a.pt m = some x → ¬ d v x < r)
      (left : FlatTree p d a (s + 1) (vpMid s e)) (right : FlatTree p d a (vpMid s e) e) :
      FlatTree p d a s e

theorem FlatTree.frame [LT R] {p : VPParams R} {d : T → T → R} {a a' : VPArray T R} {s e : ℕ}
    (h : FlatTree p d a s e) (hn : a'.dataset = a.dataset)
    (hpt : ∀ m, s ≤ m → m < max e (s + 1) → a'.pt m = a.pt m)
    (hd : ∀ m, s ≤ m → m < max e (s + 1) → a'.distances[m]? = a.distances[m]?)
    (hf : ∀ m, s ≤ m → m < max e (s + 1) → a'.term m = a.term m) : FlatTree p d a' s e := by
  have hn' : a'.dataset.length = a.dataset.length := by rw [hn]
  induction h with
  | leaf hs hse he ht hc =>
    exact .leaf (by omega) hse (by omega) (by rw [hf _ (le_refl _) (by omega)]; exact ht)
      (by rw [hd _ (le_refl _) (by omega)]; exact hc)
  | @node s e v r hse he ht hv hr hy hl hh left right ihl ihr =>
    have hm1 : s + 1 ≤ vpMid s e := by unfold vpMid; omega
    have hm2 : vpMid s e < e := by unfold vpMid; omega
    refine .node v r hse (by omega) ?_ ?_ ?_ (by rw [hn]; exact hy) ?_ ?_ (ihl ?_ ?_ ?_) (ihr ?_ ?_ ?_)
    · rw [hf _ (le_refl _) (by omega)]; exact ht
    · rw [hpt _ (le_refl _) (by omega)]; exact hv
    · rw [hd _ (le_refl _) (by omega)]; exact hr
    · intro m x h1 h2 h3
      rw [hpt _ (by omega) (by omega)] at h3; exact hl m x h1 h2 h3
    · intro m x h1 h2 h3
      rw [hpt _ (by omega) (by omega)] at h3; exact hh m x h1 h2 h3
    all_goals intro m h1 h2
    · exact hpt m (by omega) (by omega)
    · exact hd m (by omega) (by omega)
    · exact hf m (by omega) (by omega)
    · exact hpt m (by omega) (by omega)
    · exact hd m (by omega) (by omega)
    · exact hf m (by omega) (by omega)

/-- Work inside `[a, b)`, or outside it, keeps a property of its points. -/
theorem VPArray.Step.forall_pt {A A' : VPArray T R} {s e a b : ℕ} (h : Step s e A A')
    (hab : (a ≤ s ∧ e ≤ b) ∨ e ≤ a ∨ b ≤ s) {P : T → Prop}
    (hP : ∀ m x, a ≤ m → m < b → A.pt m = some x → P x) :
    ∀ m x, a ≤ m → m < b → A'.pt m = some x → P x := by
  intro m x h1 h2 h3
  by_cases hm : s ≤ m ∧ m < e
  · obtain ⟨m', b1, b2, b3⟩ := h.pt_inside hm
    rw [b3] at h3
    exact hP m' x (by omega) (by omega) h3
  · rw [h.pt_outside (by omega)] at h3
    exact hP m x h1 h2 h3

section build
variable [LE R] [LT R] [DecidableLE R] [DecidableLT R] [StrictLT R] [Zero R]

theorem flatBuildLoop_ok (d : T → T → R) (ρ : ℕ → ℕ) (p : VPParams R)
    (hcap : 1 ≤ p.leafCapacity) :
    ∀ (sz s e : ℕ) (st : BuildState T R), e - s = sz → s ≤ e → st.arr.WF →
      st.arr.terminal.isSome → s < st.arr.dataset.length → e ≤ st.arr.dataset.length →
      ∃ c st', c ≤ 2 * (e - s) + 1 ∧ Step s (max e (s + 1)) st.arr st'.arr ∧
        FlatTree p d st'.arr s e ∧
        ∀ fuel rest, flatBuildLoop d ρ p (c + fuel) ((s, e) :: rest) st =
          flatBuildLoop d ρ p fuel rest st' := by
  intro sz
  induction sz using Nat.strong_induction_on with
  | _ sz ih =>
    intro s e st hsz hse h hk hs he
    obtain ⟨st1, arr, v, r, e1, p1, e2, s2, p2, r2, b2⟩ := split_ok d ρ p.pivoting st h hs he
    have s2' : Step s (max e (s + 1)) st.arr arr := s2.mono (le_refl _) (by omega)
    have hsn : s < arr.dataset.length := by rw [s2.size]; exact hs
    obtain ⟨a3, e3, s3, d3, i3, t3⟩ := s2.wf.setDistance (s := s) (e := max e (s + 1)) (i := s)
      (by omega) hsn r
    have hk3 : a3.terminal.isSome := by rw [t3, s2.kind]; exact hk
    by_cases hc : e - s > 2 * p.leafCapacity ∧ p.leafRadius < r
    · obtain ⟨a4, e4, s4, d4, i4, t4⟩ := s3.wf.setTerminal hk3 (s := s) (e := s + 1)
        (i := s) (by omega) (by rw [s3.size]; exact hsn) false
      have s3' : Step s (s + 1) arr a3 := by
        obtain ⟨a3', e3', s3', _⟩ := s2.wf.setDistance (s := s) (e := s + 1) (i := s)
          (by omega) hsn r
        rw [e3] at e3'; cases e3'; exact s3'
      have s34 := s3'.trans s4
      have h3 : s + 3 ≤ e := by omega
      have hm1 : s + 1 ≤ vpMid s e := by unfold vpMid; omega
      have hm2 : vpMid s e < e := by unfold vpMid; omega
      have hsz4 : a4.dataset.length = st.arr.dataset.length := by rw [s34.size, s2.size]
      obtain ⟨bl, bh, _, by_⟩ := b2 (by omega)
      have bl4 := s34.forall_pt (by omega) bl
      have bh4 := s34.forall_pt (by omega) bh
      have hv4 : a4.pt s = some v := by
        unfold VPArray.pt; rw [i4, i3, s34.data]; exact p2
      have hr4 : a4.distances[s]? = some r := by
        rw [d4, d3, List.getElem?_set_self]
        rw [s2.wf.dist_len]; exact hsn
      have hk4 : a4.terminal.isSome := by rw [s4.kind]; exact hk3
      obtain ⟨c5, st5, hc5, s5, t5, l5⟩ := ih (vpMid s e - (s + 1)) (by omega) (s + 1)
        (vpMid s e) ⟨a4, st1.draws⟩ rfl hm1 s4.wf hk4 (by simp only; omega) (by simp only; omega)
      simp only at s5
      have hsz5 : st5.arr.dataset.length = st.arr.dataset.length := by rw [s5.size, hsz4]
      obtain ⟨c6, st6, hc6, s6, t6, l6⟩ := ih (e - vpMid s e) (by unfold vpMid; omega)
        (vpMid s e) e st5 rfl (by omega) s5.wf (by rw [s5.kind]; exact hk4) (by omega) (by omega)
      have he6 : max e (vpMid s e + 1) = e := by omega
      rw [he6] at s6
      have s46 : Step s (max e (s + 1)) st.arr st6.arr :=
        ((s2'.trans (s34.mono (le_refl _) (by omega))).trans
          (s5.mono (by omega) (by omega))).trans (s6.mono (by omega) (by omega))
      refine ⟨1 + c5 + c6, st6, by unfold vpMid at *; omega, s46, ?_, ?_⟩
      · refine .node v r h3 (by rw [s46.size]; exact he) ?_ ?_ ?_
          (by rw [s46.data, ← s2.data]; exact by_) ?_ ?_ ?_ t6
        · rw [s6.flag s (by omega), s5.flag s (by omega)]; exact t4
        · rw [s6.pt_outside (by omega), s5.pt_outside (by omega)]; exact hv4
        · rw [s6.dist s (by omega), s5.dist s (by omega)]; exact hr4
        · exact s6.forall_pt (by omega) (s5.forall_pt (by omega) bl4)
        · exact s6.forall_pt (by omega) (s5.forall_pt (by omega) bh4)
        · by_cases hx : vpMid s e = s + 1
          · rw [hx] at t6 ⊢
            have hsmall : e ≤ s + 3 := by unfold vpMid at hx; omega
            cases t6 with
            | leaf q1 q2 q3 q4 => exact .leaf q1 (le_refl _) (by omega) q4 (.inl (by omega))
            | node _ _ q1 => omega
          · apply t5.frame s6.data
            all_goals intro m m1 m2
            · exact s6.pt_outside (by omega)
            · exact s6.dist m (by omega)
            · exact s6.flag m (by omega)
      · intro fuel rest
        rw [show 1 + c5 + c6 + fuel = (c5 + (c6 + fuel)) + 1 by omega]
        simp only [flatBuildLoop, e1, ok_bind, e2, r2, if_pos hc, e3, e4]
        rw [l5, l6]
    · obtain ⟨a4, e4, s4, d4, i4, t4⟩ := s3.wf.setTerminal hk3 (s := s) (e := max e (s + 1))
        (i := s) (by omega) (by rw [s3.size]; exact hsn) true
      have s24 := (s2'.trans s3).trans s4
      refine ⟨1, ⟨a4, st1.draws⟩, by omega, s24, ?_, ?_⟩
      · exact .leaf (by rw [s24.size]; exact hs) hse (by rw [s24.size]; exact he) t4 (by
          by_cases hx : e - s ≤ 2 * p.leafCapacity
          · exact .inl hx
          · refine .inr ⟨r, ?_, fun hlt => hc ⟨by omega, hlt⟩⟩
            rw [d4, d3, List.getElem?_set_self]
            rw [s2.wf.dist_len]; exact hsn)
      · intro fuel rest
        rw [show 1 + fuel = fuel + 1 by omega]
        simp only [flatBuildLoop, e1, ok_bind, e2, r2, if_neg hc, e3, e4]

theorem flatInit_wf (X : List T) : (flatInit X : VPArray T R).WF := by
  refine ⟨by simp [flatInit], .refl _, ?_⟩
  intro t ht
  simp [flatInit] at ht
  simp [← ht, flatInit]

theorem flatBuild_ok (d : T → T → R) (ρ : ℕ → ℕ) (p : VPParams R)
    (hcap : 1 ≤ p.leafCapacity) (X : List T) :
    ∃ a, flatBuild d ρ p X = .ok a ∧ a.WF ∧ a.dataset = X ∧
      (X ≠ [] → FlatTree p d a 0 X.length) := by
  unfold flatBuild
  cases X with
  | nil => exact ⟨flatInit [], rfl, flatInit_wf _, rfl, fun h => absurd rfl h⟩
  | cons x X =>
    have hn : (flatInit (x :: X) : VPArray T R).size = (x :: X).length := rfl
    obtain ⟨c, st, hc, s, t, l⟩ := flatBuildLoop_ok d ρ p hcap (x :: X).length 0 (x :: X).length
      ⟨flatInit (x :: X), 0⟩ rfl (Nat.zero_le _) (flatInit_wf _) rfl
      (by show 0 < (x :: X).length; simp) (le_refl _)
    refine ⟨st.arr, ?_, s.wf, s.data, fun _ => t⟩
    simp only [hn]
    rw [if_pos (by simp)]
    have := l (2 * (x :: X).length + 2 - c) []
    rw [show c + (2 * (x :: X).length + 2 - c) = 2 * (x :: X).length + 2 by omega] at this
    rw [this]
    obtain ⟨k, hk⟩ : ∃ k, 2 * (x :: X).length + 2 - c = k + 1 :=
      ⟨2 * (x :: X).length + 1 - c, by omega⟩
    rw [hk]
    rfl

end build

theorem FlatTree.bounds [LT R] {p : VPParams R} {d : T → T → R} {a : VPArray T R} {s e : ℕ}
    (h : FlatTree p d a s e) : s < a.dataset.length ∧ s ≤ e ∧ e ≤ a.dataset.length := by
  cases h with
  | leaf h1 h2 h3 _ _ => exact ⟨h1, h2, h3⟩
  | node _ _ h1 h2 => omega

section arith
variable [AddCommGroup R] [LinearOrder R] [IsOrderedAddMonoid R]

theorem pyAbs_eq (x : R) : pyAbs x = |x| := by
  unfold pyAbs
  split
  · rename_i h; rw [abs_of_neg h]
  · rename_i h; rw [abs_of_nonneg (not_lt.mp h)]

/-- The far half can be skipped. -/
theorem PseudoMetric.far {d : T → T → R} (hd : PseudoMetric d) {q v x : T} {r : R}
    (h1 : d q v ≤ r) (h2 : r ≤ d v x) : |d q v - r| ≤ d q x := by
  have := hd.triangle v q x
  rw [hd.symm v q] at this
  rw [abs_of_nonpos (sub_nonpos.mpr h1), neg_sub, sub_le_iff_le_add']
  exact h2.trans this

/-- The near half can be skipped. -/
theorem PseudoMetric.near {d : T → T → R} (hd : PseudoMetric d) {q v x : T} {r : R}
    (h1 : r ≤ d q v) (h2 : d v x ≤ r) : |d q v - r| ≤ d q x := by
  have := hd.triangle q x v
  rw [hd.symm x v] at this
  rw [abs_of_nonneg (sub_nonneg.mpr h1), sub_le_iff_le_add]
  exact this.trans (by gcongr)

theorem not_inBall_of_far {d : T → T → R} {q x : T} {eps t : R} {b : Bool}
    (h1 : ¬ t ≤ eps) (h2 : t ≤ d q x) : ¬ InBall d q eps b x := by
  unfold InBall
  rw [not_le] at h1
  split
  · exact not_le.mpr (lt_of_lt_of_le h1 h2)
  · exact not_lt.mpr (le_of_lt (lt_of_lt_of_le h1 h2))

end arith

/-- `out` contains the entries of `X` satisfying `S`, and only ones satisfying `P`. -/
def Between (S P : T → Bool) (X out : List T) : Prop :=
  (X.filter S).Subperm out ∧ out.Subperm (X.filter P)

theorem filter_subperm {S P : T → Bool} (h : ∀ x, S x = true → P x = true) (X : List T) :
    (X.filter S).Subperm (X.filter P) :=
  (List.monotone_filter_right X h).subperm

theorem Between.perm {S P : T → Bool} {X X' out : List T} (h : Between S P X out)
    (hp : X.Perm X') : Between S P X' out :=
  ⟨(hp.symm.filter S).subperm.trans h.1, h.2.trans (hp.filter P).subperm⟩

theorem Between.exact {P : T → Bool} {X out : List T} (h : Between P P X out) :
    out.Perm (X.filter P) := h.2.antisymm h.1

/-- The answer at a node: the vantage point if in the ball, then the answers of the halves. -/
theorem Between.node {S P : T → Bool} (hSP : ∀ x, S x = true → P x = true) {v : T}
    {L H o1 o2 : List T} (h1 : Between S P L o1) (h2 : Between S P H o2) :
    Between S P (v :: (L ++ H)) ((if P v then [v] else []) ++ (o1 ++ o2)) := by
  have e : ∀ Q : T → Bool, (v :: (L ++ H)).filter Q =
      (if Q v then [v] else []) ++ (L.filter Q ++ H.filter Q) := by
    intro Q
    rw [List.filter_cons, List.filter_append]
    split <;> simp
  unfold Between
  rw [e S, e P]
  refine ⟨List.Subperm.append ?_ (h1.1.append h2.1), (List.Subperm.refl _).append (h1.2.append h2.2)⟩
  by_cases hs : S v = true
  · simp [hs, hSP v hs]
  · simp [hs]

theorem Between.swap {S P : T → Bool} {v : T} {L H : List T} {o1 o2 : List T} {w : List T}
    (h : Between S P (v :: (L ++ H)) (w ++ (o1 ++ o2))) :
    Between S P (v :: (L ++ H)) (w ++ (o2 ++ o1)) :=
  have hp : (w ++ (o1 ++ o2)).Perm (w ++ (o2 ++ o1)) := List.perm_append_comm.append_left _
  ⟨h.1.trans hp.subperm, hp.symm.subperm.trans h.2⟩

/-- A half none of whose entries satisfies `S` may be left out. -/
theorem Between.none {S P : T → Bool} {L : List T} (h : ∀ x ∈ L, S x = false) :
    Between S P L [] := by
  refine ⟨?_, List.nil_subperm⟩
  have : L.filter S = [] := by
    rw [List.filter_eq_nil_iff]
    intro x hx
    simp [h x hx]
  rw [this]

section search
variable [LE R] [LT R] [DecidableLE R] [DecidableLT R]

theorem VPArray.WF.isTerminal {a : VPArray T R} {i : ℕ} {b : Bool} (h : a.term i = some b) :
    a.isTerminal i = .ok b := by
  unfold VPArray.isTerminal
  unfold VPArray.term at h
  cases ht : a.terminal with
  | none => rw [ht] at h; cases h
  | some t => rw [ht] at h; exact getItem_ok h

theorem VPArray.WF.getDistance {a : VPArray T R} (h : a.WF) {i : ℕ} (hi : i < a.dataset.length) :
    ∃ r, a.getDistance i = .ok r :=
  ⟨_, getItem_lt (by rw [h.dist_len]; exact hi)⟩

theorem insideBall_eq (d : T → T → R) (q : T) (eps : R) (b : Bool) (x : T) :
    insideBall eps b (d q x) = decide (InBall d q eps b x) := by
  unfold insideBall InBall
  cases b <;> simp

theorem FlatTree.pts_node {a : VPArray T R} (h : a.WF) {s e : ℕ} {v : T}
    (hse : s + 3 ≤ e) (he : e ≤ a.dataset.length) (hv : a.pt s = some v) :
    a.pts s e = v :: (a.pts (s + 1) (vpMid s e) ++ a.pts (vpMid s e) e) := by
  rw [a.pts_cons (by omega) (by rw [h.idx_len]; exact he) hv,
    a.pts_append (m := vpMid s e) (by unfold vpMid; omega) (by unfold vpMid; omega)
      (by rw [h.idx_len]; exact he)]

variable [Zero R] [Neg R] [Sub R]

/-- Entries of `X` satisfying `S` are in the ball and are never skipped, whichever entry `v`
is the vantage point and whichever of its distances is the radius. The distances are `dt` when
the tree is built and `d` when it is searched. -/
structure Keeps2 (X : List T) (dt d : T → T → R) (q : T) (eps : R) (inc : Bool) (S : T → Bool) :
    Prop where
  inside : ∀ x, S x = true → InBall d q eps inc x
  far : ∀ v x r, v ∈ X → x ∈ X → (∃ y ∈ X, r = dt v y) → d q v ≤ r → ¬ dt v x < r →
    ¬ pyAbs (d q v - r) ≤ eps → S x = false
  near : ∀ v x r, v ∈ X → x ∈ X → (∃ y ∈ X, r = dt v y) → ¬ d q v ≤ r → ¬ r < dt v x →
    ¬ pyAbs (d q v - r) ≤ eps → S x = false

/-- The case of a tree searched with the distances with which it is built. -/
abbrev Keeps (X : List T) (d : T → T → R) (q : T) (eps : R) (inc : Bool) (S : T → Bool) : Prop :=
  Keeps2 X d d q eps inc S

theorem flatBallLoop_between {p : VPParams R} {dt d : T → T → R} {a : VPArray T R} (h : a.WF)
    (q : T) (eps : R) (inc : Bool) {S : T → Bool} (hS : Keeps2 a.dataset dt d q eps inc S)
    {s e : ℕ} (t : FlatTree p dt a s e) :
    ∃ c out, c ≤ 2 * (e - s) + 1 ∧
      Between S (fun x => decide (InBall d q eps inc x)) (a.pts s e) out ∧
      ∀ fuel rest acc, flatBallLoop d a q eps inc (c + fuel) ((s, e) :: rest) acc =
        flatBallLoop d a q eps inc fuel rest (acc ++ out) := by
  have hSP : ∀ x, S x = true → (fun x => decide (InBall d q eps inc x)) x = true :=
    fun x hx => decide_eq_true (hS.inside x hx)
  induction t with
  | @leaf s e hs hse he ht _ =>
    obtain ⟨r, hr⟩ := h.getDistance hs
    obtain ⟨v, hv, _⟩ := h.getPoint hs
    refine ⟨1, (a.pts s e).filter (fun x => decide (InBall d q eps inc x)), by omega,
      ⟨filter_subperm hSP _, .refl _⟩, ?_⟩
    intro fuel rest acc
    rw [show 1 + fuel = fuel + 1 by omega]
    simp only [flatBallLoop, hr, hv, ok_bind, WF.isTerminal ht, if_true, h.getPoints,
      insideBall_eq]
  | @node s e v r hse he ht hv hr hy hl hh left right ihl ihr =>
    obtain ⟨c1, o1, hc1, a1, l1⟩ := ihl
    obtain ⟨c2, o2, hc2, a2, l2⟩ := ihr
    have hm1 : s + 1 ≤ vpMid s e := by unfold vpMid; omega
    have hm2 : vpMid s e < e := by unfold vpMid; omega
    have hpts := FlatTree.pts_node h hse he hv
    have hrd : a.getDistance s = .ok r := getItem_ok hr
    have hvp := getPoint_of_pt hv
    set P : T → Bool := fun x => decide (InBall d q eps inc x) with hP
    have hstep : ∀ fuel rest acc,
        flatBallLoop d a q eps inc (fuel + 1) ((s, e) :: rest) acc =
          flatBallLoop d a q eps inc fuel
            (if d q v ≤ r then (s + 1, vpMid s e) ::
              (if pyAbs (d q v - r) ≤ eps then (vpMid s e, e) :: rest else rest)
             else (vpMid s e, e) ::
              (if pyAbs (d q v - r) ≤ eps then (s + 1, vpMid s e) :: rest else rest))
            (acc ++ (if P v then [v] else [])) := by
      intro fuel rest acc
      simp only [flatBallLoop, hrd, hvp, ok_bind, WF.isTerminal ht, insideBall_eq]
      have : (if P v then acc ++ [v] else acc) = acc ++ (if P v then [v] else []) := by
        split <;> simp
      simp only [hP] at this ⊢
      rw [this]
      by_cases h1 : d q v ≤ r <;> simp [h1]
    rw [hpts]
    by_cases h1 : d q v ≤ r
    · by_cases h2 : pyAbs (d q v - r) ≤ eps
      · refine ⟨1 + c1 + c2, (if P v then [v] else []) ++ (o1 ++ o2), by omega,
          a1.node hSP a2, ?_⟩
        intro fuel rest acc
        rw [show 1 + c1 + c2 + fuel = (c1 + (c2 + fuel)) + 1 by omega, hstep, if_pos h1,
          if_pos h2, l1, l2]
        simp
      · refine ⟨1 + c1, (if P v then [v] else []) ++ (o1 ++ []), by omega,
          a1.node hSP (.none ?_), ?_⟩
        · intro x hx
          obtain ⟨m, m1, m2, m3⟩ := mem_pts hx
          exact hS.far v x r (pt_mem hv) (pt_mem m3) hy h1 (hh m x m1 m2 m3) h2
        · intro fuel rest acc
          rw [show 1 + c1 + fuel = (c1 + fuel) + 1 by omega, hstep, if_pos h1, if_neg h2, l1]
          simp
    · by_cases h2 : pyAbs (d q v - r) ≤ eps
      · refine ⟨1 + c2 + c1, (if P v then [v] else []) ++ (o2 ++ o1), by omega,
          (a1.node hSP a2).swap, ?_⟩
        intro fuel rest acc
        rw [show 1 + c2 + c1 + fuel = (c2 + (c1 + fuel)) + 1 by omega, hstep, if_neg h1,
          if_pos h2, l2, l1]
        simp
      · refine ⟨1 + c2, (if P v then [v] else []) ++ (o2 ++ []), by omega,
          (Between.node hSP (.none ?_) a2).swap, ?_⟩
        · intro x hx
          obtain ⟨m, m1, m2, m3⟩ := mem_pts hx
          exact hS.near v x r (pt_mem hv) (pt_mem m3) hy h1 (hl m x m1 m2 m3) h2
        · intro fuel rest acc
          rw [show 1 + c2 + fuel = (c2 + fuel) + 1 by omega, hstep, if_neg h1, if_neg h2, l2]
          simp

theorem flatBallSearch_between {p : VPParams R} {dt d : T → T → R} {a : VPArray T R} (h : a.WF)
    (t : FlatTree p dt a 0 a.dataset.length) (q : T) (eps : R) (inc : Bool) {S : T → Bool}
    (hS : Keeps2 a.dataset dt d q eps inc S) :
    ∃ out, flatBallSearch d a q eps inc = .ok out ∧
      Between S (fun x => decide (InBall d q eps inc x)) a.dataset out := by
  obtain ⟨c, out, hc, ho, l⟩ := flatBallLoop_between h q eps inc hS t
  refine ⟨out, ?_, ho.perm h.pts_all⟩
  unfold flatBallSearch VPArray.size
  have := l (2 * a.dataset.length + 2 - c) [] []
  rw [show c + (2 * a.dataset.length + 2 - c) = 2 * a.dataset.length + 2 by omega] at this
  rw [this]
  obtain ⟨k, hk⟩ : ∃ k, 2 * a.dataset.length + 2 - c = k + 1 :=
    ⟨2 * a.dataset.length + 1 - c, by omega⟩
  rw [hk]
  rfl

end search

section exact
variable [AddCommGroup R] [LinearOrder R] [IsOrderedAddMonoid R]

theorem PseudoMetric.keeps {d : T → T → R} (hd : PseudoMetric d) (X : List T) (q : T) (eps : R)
    (inc : Bool) : Keeps X d q eps inc (fun x => decide (InBall d q eps inc x)) where
  inside := fun x hx => of_decide_eq_true hx
  far := fun v x r _ _ _ h1 h2 h3 => by
    rw [pyAbs_eq] at h3
    exact decide_eq_false (not_inBall_of_far h3 (hd.far h1 (not_lt.mp h2)))
  near := fun v x r _ _ _ h1 h2 h3 => by
    rw [pyAbs_eq] at h3
    exact decide_eq_false (not_inBall_of_far h3 (hd.near (le_of_not_ge h1) (not_lt.mp h2)))

theorem flatBallSearch_ok {p : VPParams R} {d : T → T → R} (hd : PseudoMetric d) {a : VPArray T R}
    (h : a.WF) (t : FlatTree p d a 0 a.dataset.length) (q : T) (eps : R) (inc : Bool) :
    ∃ out, flatBallSearch d a q eps inc = .ok out ∧
      IsBallAnswer d q eps inc a.dataset out := by
  obtain ⟨out, e, ho⟩ := flatBallSearch_between h t q eps inc (hd.keeps _ q eps inc)
  exact ⟨out, e, ho.exact⟩

end exact

end Verif

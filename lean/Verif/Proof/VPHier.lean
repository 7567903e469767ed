import Verif.Proof.Knn

set_option linter.unusedSectionVars false

namespace Verif

variable {T R : Type}

open VPArray

theorem VPArray.Step.pts_outside {a a' : VPArray T R} {s e u w : ℕ} (h : Step s e a a')
    (hd : w ≤ s ∨ e ≤ u) : a'.pts u w = a.pts u w := by
  unfold VPArray.pts
  rw [h.data]
  congr 1
  obtain ⟨π, h1, h2⟩ := h.move
  apply List.ext_getElem?
  intro i
  rw [getElem?_slice, getElem?_slice]
  split
  · rw [h2.2, h1 _ (by omega)]
  · rfl

theorem VPArray.Step.pts_perm {a a' : VPArray T R} {s e : ℕ} (h : Step s e a a') (hw : a.WF)
    (hse : s ≤ e) (he : e ≤ a.dataset.length) : (a'.pts s e).Perm (a.pts s e) := by
  obtain ⟨π, h1, h2⟩ := h.move
  unfold VPArray.pts
  rw [h.data]
  exact (h2.slice_perm h1 hse (by rw [hw.idx_len]; exact he)).filterMap _

/-- The points below a node. -/
def VPNode.pts (a : VPArray T R) : VPNode T R → List T
  | .leaf s e => a.pts s e
  | .node _ v l r => v :: (l.pts a ++ r.pts a)

/-- The vantage-point property of a hierarchical tree. -/
def VPNode.Good [LT R] (d : T → T → R) (a : VPArray T R) : VPNode T R → Prop
  | .leaf _ _ => True
  | .node r v left right =>
    (∀ x ∈ left.pts a, ¬ r < d v x) ∧ (∀ x ∈ right.pts a, ¬ d v x < r) ∧
      (v ∈ a.dataset ∧ ∃ y ∈ a.dataset, r = d v y) ∧ left.Good d a ∧ right.Good d a

/-- All leaves lie in `[s, e)`. -/
def VPNode.Within (s e : ℕ) : VPNode T R → Prop
  | .leaf u w => s ≤ u ∧ w ≤ e
  | .node _ _ l r => l.Within s e ∧ r.Within s e

/-- A leaf larger than the capacity hangs below a node of at most the leaf radius. -/
def VPNode.Cap [LE R] (p : VPParams R) : VPNode T R → Prop
  | .leaf s e => e - s ≤ p.leafCapacity
  | .node r _ left right => r ≤ p.leafRadius ∨ (left.Cap p ∧ right.Cap p)

theorem VPNode.Within.mono {s e s' e' : ℕ} (hs : s' ≤ s) (he : e ≤ e') :
    ∀ {t : VPNode T R}, t.Within s e → t.Within s' e'
  | .leaf _ _, h => ⟨hs.trans h.1, h.2.trans he⟩
  | .node _ _ _ _, h => ⟨h.1.mono hs he, h.2.mono hs he⟩

theorem VPNode.pts_frame {a a' : VPArray T R} {s e u w : ℕ} (h : Step s e a a')
    (hd : w ≤ s ∨ e ≤ u) : ∀ {t : VPNode T R}, t.Within u w → t.pts a' = t.pts a
  | .leaf x y, ht => h.pts_outside (by have := ht.1; have := ht.2; omega)
  | .node r v l rt, ht => by
    simp only [VPNode.pts]
    rw [VPNode.pts_frame h hd ht.1, VPNode.pts_frame h hd ht.2]

theorem VPNode.good_frame [LT R] {d : T → T → R} {a a' : VPArray T R} {s e u w : ℕ}
    (h : Step s e a a') (hd : w ≤ s ∨ e ≤ u) :
    ∀ {t : VPNode T R}, t.Within u w → t.Good d a → t.Good d a'
  | .leaf x y, _, _ => trivial
  | .node r v l rt, ht, hg => by
    obtain ⟨h1, h2, h5, h3, h4⟩ := hg
    refine ⟨?_, ?_, by rw [h.data]; exact h5, VPNode.good_frame h hd ht.1 h3, VPNode.good_frame h hd ht.2 h4⟩
    · rw [VPNode.pts_frame h hd ht.1]; exact h1
    · rw [VPNode.pts_frame h hd ht.2]; exact h2

section build
variable [LE R] [LT R] [DecidableLE R] [DecidableLT R] [StrictLT R] [Zero R]

theorem hierBuildRec_ok (d : T → T → R) (ρ : ℕ → ℕ) (p : VPParams R)
    (hcap : 1 ≤ p.leafCapacity) :
    ∀ (fuel s e : ℕ) (st : BuildState T R), e - s < fuel → s ≤ e → st.arr.WF →
      e ≤ st.arr.dataset.length →
      ∃ t st', hierBuildRec d ρ p fuel s e st = .ok (t, st') ∧ Step s e st.arr st'.arr ∧
        t.Within s e ∧ (t.pts st'.arr).Perm (st'.arr.pts s e) ∧ t.Cap p ∧ t.Good d st'.arr := by
  intro fuel
  induction fuel with
  | zero => intro s e st h; omega
  | succ fuel ih =>
    intro s e st hf hse h he
    by_cases hc : e - s ≤ p.leafCapacity
    · exact ⟨.leaf s e, st, by rw [hierBuildRec, if_pos hc], .refl h _ _,
        ⟨le_refl _, le_refl _⟩, .refl _, hc, trivial⟩
    · have h2 : s + 2 ≤ e := by omega
      obtain ⟨st1, arr, v, r, e1, p1, e2, s2, p2, r2, b2⟩ :=
        split_ok d ρ p.pivoting st h (s := s) (e := e) (by omega) he
      obtain ⟨bl, bh, bv⟩ := b2 h2
      have hm1 : s + 1 ≤ vpMid s e := by unfold vpMid; omega
      have hm2 : vpMid s e < e := by unfold vpMid; omega
      obtain ⟨a3, e3, s3, d3, i3, t3⟩ := s2.wf.setDistance (s := s) (e := s + 1) (i := s)
        (by omega) (by rw [s2.size]; omega) r
      have hv1 := getPoint_of_pt p1
      have s23 := s2.trans (s3.mono (e' := e) (le_refl _) (by omega))
      have hv3 : a3.pt s = some v := by
        unfold VPArray.pt; rw [i3, s3.data]; exact p2
      have bl3 := s3.forall_pt (by omega) bl
      have bh3 := s3.forall_pt (by omega) bh
      -- the points of `[s, e)` of a later array with the same vantage point
      have hcons : ∀ A : VPArray T R, A.WF → A.dataset.length = st.arr.dataset.length →
          A.pt s = some v →
          A.pts s e = v :: (A.pts (s + 1) (vpMid s e) ++ A.pts (vpMid s e) e) := by
        intro A hA hn hv
        rw [A.pts_cons (by omega) (by rw [hA.idx_len]; omega) hv,
          A.pts_append hm1 (le_of_lt hm2) (by rw [hA.idx_len]; omega)]
      by_cases hr : r ≤ p.leafRadius
      · refine ⟨.node r v (.leaf (s + 1) (vpMid s e)) (.leaf (vpMid s e) e),
          ⟨a3, st1.draws⟩, ?_, s23, ?_, ?_, .inl hr, ?_, ?_, by rw [s3.data]; exact bv,
          trivial, trivial⟩
        · rw [hierBuildRec, if_neg hc]
          simp only [e1, ok_bind, hv1, e2, r2, e3, if_pos hr]
          rfl
        · exact ⟨⟨by omega, by omega⟩, by omega, le_refl _⟩
        · rw [hcons a3 s3.wf s23.size hv3]; exact .refl _
        · intro x hx
          obtain ⟨m, m1, m2, m3⟩ := mem_pts hx
          exact bl3 m x m1 m2 m3
        · intro x hx
          obtain ⟨m, m1, m2, m3⟩ := mem_pts hx
          exact bh3 m x m1 m2 m3
      · obtain ⟨tl, st4, e4, s4, w4, p4, c4, g4⟩ := ih (s + 1) (vpMid s e) ⟨a3, st1.draws⟩
          (by omega) hm1 s3.wf (by simp only; rw [s23.size]; omega)
        simp only at s4
        have hs4 : st4.arr.dataset.length = st.arr.dataset.length := by rw [s4.size, s23.size]
        obtain ⟨tr, st5, e5, s5, w5, p5, c5, g5⟩ := ih (vpMid s e) e st4
          (by unfold vpMid; omega) (le_of_lt hm2) s4.wf (by omega)
        have s35 : Step s e st.arr st5.arr :=
          (s23.trans (s4.mono (by omega) (by omega))).trans (s5.mono (by omega) (le_refl _))
        have hv5 : st5.arr.pt s = some v := by
          rw [s5.pt_outside (by omega), s4.pt_outside (by omega)]; exact hv3
        have hpl : (tl.pts st5.arr).Perm (st5.arr.pts (s + 1) (vpMid s e)) := by
          rw [VPNode.pts_frame s5 (by omega) w4, s5.pts_outside (by omega)]; exact p4
        refine ⟨.node r v tl tr, st5, ?_, s35, ⟨w4.mono (by omega) (by omega),
          w5.mono (by omega) (le_refl _)⟩, ?_, .inr ⟨c4, c5⟩, ?_, ?_,
          by rw [s35.data, ← s2.data]; exact bv, ?_, g5⟩
        · rw [hierBuildRec, if_neg hc]
          simp only [e1, ok_bind, hv1, e2, r2, e3, if_neg hr, e4, e5]
          rfl
        · rw [hcons st5.arr s5.wf s35.size hv5]
          exact ((hpl.append p5).cons v)
        · intro x hx
          obtain ⟨m, m1, m2, m3⟩ := mem_pts (hpl.mem_iff.mp hx)
          exact s5.forall_pt (by omega) (s4.forall_pt (by omega) bl3) m x m1 m2 m3
        · intro x hx
          obtain ⟨m, m1, m2, m3⟩ := mem_pts (p5.mem_iff.mp hx)
          exact s5.forall_pt (by omega) (s4.forall_pt (by omega) bh3) m x m1 m2 m3
        · exact VPNode.good_frame s5 (by omega) w4 g4

theorem hierInit_wf (X : List T) : (hierInit X : VPArray T R).WF := by
  refine ⟨by simp [hierInit], .refl _, ?_⟩
  intro t ht
  simp [hierInit] at ht

theorem hierBuild_ok (d : T → T → R) (ρ : ℕ → ℕ) (p : VPParams R)
    (hcap : 1 ≤ p.leafCapacity) (X : List T) :
    ∃ t a, hierBuild d ρ p X = .ok (t, a) ∧ a.WF ∧ a.dataset = X ∧
      t.Within 0 X.length ∧ (t.pts a).Perm X ∧ t.Cap p ∧ t.Good d a := by
  unfold hierBuild
  cases X with
  | nil => exact ⟨_, _, rfl, hierInit_wf _, rfl, ⟨le_refl _, le_refl _⟩,
      by simp [VPNode.pts, VPArray.pts_eq_nil], by simp [VPNode.Cap], trivial⟩
  | cons x X =>
    have hn : (hierInit (x :: X) : VPArray T R).size = (x :: X).length := rfl
    obtain ⟨t, st, e1, s, w, pp, c, g⟩ := hierBuildRec_ok d ρ p hcap ((x :: X).length + 1) 0
      (x :: X).length ⟨hierInit (x :: X), 0⟩ (by omega) (Nat.zero_le _) (hierInit_wf _)
      (le_refl _)
    refine ⟨t, st.arr, ?_, s.wf, s.data, w, ?_, c, g⟩
    · simp only [hn]
      rw [if_pos (by simp), e1]
      rfl
    · have h1 := s.wf.pts_all
      rw [s.data] at h1
      exact pp.trans h1

end build

section ball
variable [LE R] [LT R] [DecidableLE R] [DecidableLT R] [Zero R] [Neg R] [Sub R]

theorem hierBallRec_between {dt d : T → T → R} (hsy : ∀ x y, d x y = d y x) {a : VPArray T R}
    (h : a.WF) (q : T) (eps : R) (inc : Bool) {S : T → Bool}
    (hS : Keeps2 a.dataset dt d q eps inc S) :
    ∀ (t : VPNode T R), (∀ x ∈ t.pts a, x ∈ a.dataset) → t.Good dt a → ∀ acc,
    ∃ out, hierBallRec d a q eps inc t acc = .ok (acc ++ out) ∧
      Between S (fun x => decide (InBall d q eps inc x)) (t.pts a) out := by
  have hSP : ∀ x, S x = true → (fun x => decide (InBall d q eps inc x)) x = true :=
    fun x hx => decide_eq_true (hS.inside x hx)
  intro t
  induction t with
  | leaf s e =>
    intro _ _ acc
    refine ⟨(a.pts s e).filter (fun x => decide (InBall d q eps inc x)), ?_,
      filter_subperm hSP _, .refl _⟩
    simp only [hierBallRec, h.getPoints, ok_bind, insideBall_eq]
    rfl
  | node r v left right ihl ihr =>
    intro hin hg acc
    obtain ⟨hl, hh, ⟨hv, hy⟩, gl, gr⟩ := hg
    have inl : ∀ x ∈ left.pts a, x ∈ a.dataset := fun x hx => hin x (by simp [VPNode.pts, hx])
    have inr : ∀ x ∈ right.pts a, x ∈ a.dataset := fun x hx => hin x (by simp [VPNode.pts, hx])
    set P : T → Bool := fun x => decide (InBall d q eps inc x) with hP
    have hins : insideBall eps inc (d q v) = P v := by rw [insideBall_eq]
    have hres : (if insideBall eps inc (d q v) = true then acc ++ [v] else acc) =
        acc ++ (if P v then [v] else []) := by rw [hins]; split <;> simp
    by_cases h1 : d q v ≤ r
    · obtain ⟨o1, e1, a1⟩ := ihl inl gl (acc ++ (if P v then [v] else []))
      by_cases h2 : pyAbs (d q v - r) ≤ eps
      · obtain ⟨o2, e2, a2⟩ := ihr inr gr ((acc ++ (if P v then [v] else [])) ++ o1)
        refine ⟨(if P v then [v] else []) ++ (o1 ++ o2), ?_, a1.node hSP a2⟩
        simp only [hierBallRec, hsy v q, hres, if_pos h1, e1, ok_bind, if_pos h2, e2]
        simp only [List.append_assoc]
      · refine ⟨(if P v then [v] else []) ++ (o1 ++ []), ?_, a1.node hSP (.none ?_)⟩
        · simp only [hierBallRec, hsy v q, hres, if_pos h1, e1, ok_bind, if_neg h2,
            List.append_assoc, pure_eq_ok, List.append_nil]
        · intro x hx
          exact hS.far v x r hv (inr x hx) hy h1 (hh x hx) h2
    · obtain ⟨o1, e1, a1⟩ := ihr inr gr (acc ++ (if P v then [v] else []))
      by_cases h2 : pyAbs (d q v - r) ≤ eps
      · obtain ⟨o2, e2, a2⟩ := ihl inl gl ((acc ++ (if P v then [v] else [])) ++ o1)
        refine ⟨(if P v then [v] else []) ++ (o1 ++ o2), ?_, (a2.node hSP a1).swap⟩
        simp only [hierBallRec, hsy v q, hres, if_neg h1, e1, ok_bind, if_pos h2, e2]
        simp only [List.append_assoc]
      · refine ⟨(if P v then [v] else []) ++ (o1 ++ []), ?_,
          (Between.node hSP (.none ?_) a1).swap⟩
        · simp only [hierBallRec, hsy v q, hres, if_neg h1, e1, ok_bind, if_neg h2,
            List.append_assoc, pure_eq_ok, List.append_nil]
        · intro x hx
          exact hS.near v x r hv (inl x hx) hy h1 (hl x hx) h2

end ball

section search
variable [LinearOrder R] [Zero R] [Neg R] [Sub R]

theorem leRadius_false {x : R} {r : Option R} (h : ¬ leRadius x r = true) :
    ∃ y, r = some y ∧ y < x := by
  cases r with
  | none => exact absurd rfl h
  | some y =>
    simp only [leRadius, decide_eq_true_eq, not_le] at h
    exact ⟨y, rfl, h⟩

/-- Skipped entries may be left out (hierarchical search). -/
structure SkipsOkH (d : T → T → R) (q : T) (L : R → T → Prop) : Prop where
  prefers : Prefers (d q) L
  far : ∀ v x r y, d q v ≤ r → r ≤ d v x → y < pyAbs (d q v - r) → L y x
  near : ∀ v x r y, r < d q v → d v x ≤ r → y < pyAbs (d q v - r) → L y x

/-- The same for entries of `X`, with distances `dt` when the tree is built and `d` when it is
searched. -/
structure SkipsOkH2 (X : List T) (dt d : T → T → R) (q : T) (L : R → T → Prop) : Prop where
  prefers : Prefers (d q) L
  far : ∀ v x r y, v ∈ X → x ∈ X → d q v ≤ r → r ≤ dt v x → y < pyAbs (d q v - r) → L y x
  near : ∀ v x r y, v ∈ X → x ∈ X → r < d q v → dt v x ≤ r → y < pyAbs (d q v - r) → L y x

theorem SkipsOkH.two {d : T → T → R} {q : T} {L : R → T → Prop} (h : SkipsOkH d q L) (X : List T) :
    SkipsOkH2 X d d q L :=
  ⟨h.prefers, fun v x r y _ _ => h.far v x r y, fun v x r y _ _ => h.near v x r y⟩

omit [Zero R] [Neg R] [Sub R] in
theorem VPNode.Good.mem {d : T → T → R} {a : VPArray T R} :
    ∀ {t : VPNode T R}, t.Good d a → ∀ x ∈ t.pts a, x ∈ a.dataset
  | .leaf s e, _, x, hx => by
    obtain ⟨_, _, _, h⟩ := mem_pts hx
    exact pt_mem h
  | .node r v l h, hg, x, hx => by
    obtain ⟨_, _, ⟨hv, _⟩, gl, gr⟩ := hg
    rw [VPNode.pts, List.mem_cons, List.mem_append] at hx
    rcases hx with rfl | hx | hx
    · exact hv
    · exact VPNode.Good.mem gl x hx
    · exact VPNode.Good.mem gr x hx

theorem hierKnnRec_upTo {dt d : T → T → R} (hsy : ∀ x y, d x y = d y x) {a : VPArray T R}
    (h : a.WF) (q : T) {L : R → T → Prop} (hS : SkipsOkH2 a.dataset dt d q L) (k : ℕ) :
    ∀ (t : VPNode T R), t.Good dt a → ∀ seen hp, KInv (d q) L k seen hp →
    ∃ hp', hierKnnRec d a q k t hp = .ok hp' ∧ KInv (d q) L k (seen ++ t.pts a) hp' := by
  have hL := hS.prefers
  intro t
  induction t with
  | leaf s e =>
    intro _ seen hp hi
    obtain ⟨h', e1, i1⟩ := hierKnnLeaf_ok d q hL k (a.pts s e) seen hp hi
    exact ⟨h', by simp only [hierKnnRec, h.getPoints, ok_bind, e1], i1⟩
  | node r v left right ihl ihr =>
    intro hg seen hp hi
    obtain ⟨hl, hh, ⟨hv, _⟩, gl, gr⟩ := hg
    obtain ⟨h1, e1, i1⟩ := hierKnnConsider_ok (d q) hL k seen hp v hi
    have hsy := hsy v q
    by_cases hc : d q v ≤ r
    · obtain ⟨h2, e2, i2⟩ := ihl gl _ h1 i1
      by_cases hr : leRadius (pyAbs (d q v - r)) (radiusOf k h2) = true
      · obtain ⟨h3, e3, i3⟩ := ihr gr _ h2 i2
        refine ⟨h3, ?_, i3.perm (by simp [VPNode.pts])⟩
        simp only [hierKnnRec, hsy, e1, ok_bind, if_pos hc, e2, hierKnnRadius_ok, if_pos hr, e3]
      · refine ⟨h2, ?_, ?_⟩
        · simp only [hierKnnRec, hsy, e1, ok_bind, if_pos hc, e2, hierKnnRadius_ok, if_neg hr,
            pure_eq_ok]
        · obtain ⟨y, hy, hlt⟩ := leRadius_false hr
          refine (i2.skip hL hy (ys := right.pts a) ?_).perm (by simp [VPNode.pts])
          intro x hx
          exact hS.far v x r y hv (gr.mem x hx) hc (not_lt.mp (hh x hx)) hlt
    · obtain ⟨h2, e2, i2⟩ := ihr gr _ h1 i1
      have hperm : (seen ++ [v] ++ right.pts a ++ left.pts a).Perm
          (seen ++ (VPNode.node r v left right).pts a) := by
        simp only [VPNode.pts, List.append_assoc, List.singleton_append]
        exact (List.Perm.cons _ List.perm_append_comm).append_left _
      by_cases hr : leRadius (pyAbs (d q v - r)) (radiusOf k h2) = true
      · obtain ⟨h3, e3, i3⟩ := ihl gl _ h2 i2
        refine ⟨h3, ?_, i3.perm hperm⟩
        simp only [hierKnnRec, hsy, e1, ok_bind, if_neg hc, e2, hierKnnRadius_ok, if_pos hr, e3]
      · refine ⟨h2, ?_, ?_⟩
        · simp only [hierKnnRec, hsy, e1, ok_bind, if_neg hc, e2, hierKnnRadius_ok, if_neg hr,
            pure_eq_ok]
        · obtain ⟨y, hy, hlt⟩ := leRadius_false hr
          refine (i2.skip hL hy (ys := left.pts a) ?_).perm hperm
          intro x hx
          exact hS.near v x r y hv (gl.mem x hx) (not_le.mp hc) (not_lt.mp (hl x hx)) hlt

end search

section exact
variable [AddCommGroup R] [LinearOrder R] [IsOrderedAddMonoid R]

theorem hierBallRec_ok {d : T → T → R} (hd : PseudoMetric d) {a : VPArray T R} (h : a.WF)
    (q : T) (eps : R) (inc : Bool) (t : VPNode T R) (hin : ∀ x ∈ t.pts a, x ∈ a.dataset)
    (hg : t.Good d a) (acc : List T) :
    ∃ out, hierBallRec d a q eps inc t acc = .ok (acc ++ out) ∧
      IsBallAnswer d q eps inc (t.pts a) out := by
  obtain ⟨out, e, ho⟩ := hierBallRec_between hd.symm h q eps inc (hd.keeps _ q eps inc) t hin hg acc
  exact ⟨out, e, ho.exact⟩

theorem PseudoMetric.skipsH {d : T → T → R} (hd : PseudoMetric d) (q : T) :
    SkipsOkH d q (fun r x => r ≤ d q x) where
  prefers := prefers_le _
  far := fun v x r y h1 h2 h3 => by
    rw [pyAbs_eq] at h3
    exact (le_of_lt h3).trans (hd.far h1 h2)
  near := fun v x r y h1 h2 h3 => by
    rw [pyAbs_eq] at h3
    exact (le_of_lt h3).trans (hd.near (le_of_lt h1) h2)

theorem hierKnnRec_ok {d : T → T → R} (hd : PseudoMetric d) {a : VPArray T R} (h : a.WF)
    (q : T) (k : ℕ) (t : VPNode T R) (hg : t.Good d a) (seen : List T) (hp : MaxHeap R T)
    (hi : KInv (d q) (fun r x => r ≤ d q x) k seen hp) :
    ∃ hp', hierKnnRec d a q k t hp = .ok hp' ∧
      KInv (d q) (fun r x => r ≤ d q x) k (seen ++ t.pts a) hp' :=
  hierKnnRec_upTo hd.symm h q ((hd.skipsH q).two _) k t hg seen hp hi

end exact

end Verif

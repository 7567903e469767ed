import Verif.Spec.Rounding
import Verif.Proof.Cover
import Mathlib.Tactic.Abel

/-!
# Lemmas on searches with rounded distances
-/

set_option autoImplicit false
set_option linter.unusedSectionVars false

namespace Verif

variable {T R K : Type} [LinearOrder R] [Zero R] [Neg R] [Sub R]
  [AddCommGroup K] [LinearOrder K] [IsOrderedAddMonoid K] {val : R → K}

section keeps
variable {R : Type} [LE R] [LT R] [DecidableLE R] [DecidableLT R] [StrictLT R] [Zero R] [Neg R]
  [Sub R]

theorem keeps_nothing (X : List T) (d : T → T → R) (q : T) (eps : R) (inc : Bool) :
    Keeps X d q eps inc (fun _ => false) :=
  ⟨fun _ hx => by simp at hx, fun _ _ _ _ _ _ _ _ _ => rfl, fun _ _ _ _ _ _ _ _ _ => rfl⟩

/-- A tree finds every entry that is never skipped. -/
theorem vptree_keeps {d : T → T → R} (hsy : ∀ x y, d x y = d y x) (X : List T) (kind : String)
    (hk : IsKind kind) (p : VPParams R) (hp : 1 ≤ p.leafCapacity) (ρ : ℕ → ℕ) :
    ∃ t, VPTree.build X d kind p ρ = .ok t ∧ (X ≠ [] → ∀ q eps inc, ∃ out,
      t.ballSearch q eps inc = .ok out ∧ ∀ S, Keeps X d q eps inc S →
        Between S (fun x => decide (InBall d q eps inc x)) X out) := by
  have key : ∀ (r : Py (List T)) (q : T) (eps : R) (inc : Bool), (∀ S, Keeps X d q eps inc S →
      ∃ out, r = .ok out ∧ Between S (fun x => decide (InBall d q eps inc x)) X out) →
      ∃ out, r = .ok out ∧ ∀ S, Keeps X d q eps inc S →
        Between S (fun x => decide (InBall d q eps inc x)) X out := by
    intro r q eps inc h
    have h0 : Keeps X d q eps inc (fun _ => false) := keeps_nothing _ _ _ _ _
    obtain ⟨out, e, _⟩ := h _ h0
    refine ⟨out, e, fun S hS => ?_⟩
    obtain ⟨out', e', h'⟩ := h S hS
    rw [e] at e'
    cases e'
    exact h'
  rcases hk with rfl | rfl
  · obtain ⟨a, e1, wf, hdata, ht⟩ := flatBuild_ok d ρ p hp X
    refine ⟨.flat d a, by simp [VPTree.build, e1], ?_⟩
    intro hX q eps inc
    refine key _ q eps inc fun S hS => ?_
    have := flatBallSearch_between wf (by rw [hdata]; exact ht hX) q eps inc
      (S := S) (by rw [hdata]; exact hS)
    rw [hdata] at this
    exact this
  · obtain ⟨t, a, e1, wf, hdata, _, hperm, _, hgood⟩ := hierBuild_ok d ρ p hp X
    refine ⟨.hier d t a, by simp [VPTree.build, e1], ?_⟩
    intro _ q eps inc
    refine key _ q eps inc fun S hS => ?_
    obtain ⟨out, e2, h2⟩ := hierBallRec_between hsy wf q eps inc (S := S)
      (by rw [hdata]; exact hS) t (fun x hx => by rw [hdata]; exact hperm.subset hx) hgood []
    exact ⟨out, by simpa [VPTree.ballSearch, hierBallSearch] using e2, h2.perm hperm⟩

variable [DecidableEq R]

/-- The indices found by a fitted `BallCover`. -/
theorem ballFit_keeps (c : BallCover T R) (hsy : ∀ x y, c.params.metric x y = c.params.metric y x)
    (hk : IsKind c.params.kind) (hp : 1 ≤ c.params.leafCapacity) (ρ : ℕ → ℕ) (X : List T) :
    ∃ c', c.fit ρ X = .ok c' ∧ (X ≠ [] → ∀ x, ∃ out, c'.search x = .ok out ∧ out.Nodup ∧
      (∀ j ∈ out, ∃ z, X[j]? = some z ∧ c.params.metric x z < c.params.radius) ∧
      ∀ S, Keeps X c.params.metric x c.params.radius false S →
        ∀ (j : ℕ) z, X[j]? = some z → S z = true → j ∈ out) := by
  obtain ⟨t, h1, h2⟩ := vptree_keeps (d := pullback (snd (T := T)) c.params.metric)
    (fun _ _ => hsy _ _) (enumerate X) c.params.kind hk
    ⟨c.params.leafCapacity, numOr c.params.leafRadius c.params.radius, c.params.pivoting⟩ hp ρ
  refine ⟨⟨c.params, some ⟨c.params.radius, t⟩⟩, by simp [BallCover.fit, h1], ?_⟩
  intro hX x
  obtain ⟨out, h3, h4⟩ := h2 (enumerate_ne_nil hX) (-1, x) c.params.radius false
  have hsub := (h4 (fun _ => false) (keeps_nothing _ _ _ _ _)).2
  have hex := firsts_filter_exact X (fun z => c.params.metric x z < c.params.radius) _
    (List.Perm.refl _)
  have hsub' : (firsts out).Subperm (firsts ((enumerate X).filter
      (fun e => decide (c.params.metric x e.2 < c.params.radius)))) := by
    obtain ⟨l, h5, h6⟩ := hsub
    refine ⟨firsts l, h5.map _, List.Sublist.map _ ?_⟩
    simpa [InBall, Verif.pullback, snd] using h6
  refine ⟨firsts out, by simp [BallCover.search, h3], ?_, ?_, ?_⟩
  · obtain ⟨l, hp, hs⟩ := hsub'
    exact hp.nodup_iff.mp (hex.1.sublist hs)
  · intro j hj
    exact (hex.2 j).mp (hsub'.subset hj)
  · intro S hS j z hz hSz
    have hmem : ∀ e ∈ enumerate X, e.2 ∈ X := by
      rintro ⟨i, z⟩ he
      obtain ⟨j, _, hj⟩ := (mem_enumerate X _).mp he
      exact List.mem_of_getElem? hj
    have hb := (h4 (fun e => S e.2) ⟨fun e he => hS.inside e.2 he,
      fun v e r hv he ⟨y, hy, hr⟩ => hS.far v.2 e.2 r (hmem v hv) (hmem e he)
        ⟨y.2, hmem y hy, hr⟩,
      fun v e r hv he ⟨y, hy, hr⟩ => hS.near v.2 e.2 r (hmem v hv) (hmem e he)
        ⟨y.2, hmem y hy, hr⟩⟩).1
    have hm : ((j : ℤ), z) ∈ out := hb.subset (List.mem_filter.mpr
      ⟨(mem_enumerate X _).mpr ⟨j, rfl, hz⟩, hSz⟩)
    exact List.mem_map.mpr ⟨_, hm, by simp⟩


/-- An entry in the ball whose distances are those of the query is never skipped: this needs
no triangle inequality. -/
theorem keeps_twin {Fin : R → Prop} (hF : FiniteNumbers Fin) {X : List T} {d : T → T → R}
    (hfin : ∀ x ∈ X, ∀ y ∈ X, Fin (d x y)) (q : T) (hq : q ∈ X) (eps : R) (h0 : 0 ≤ eps)
    (inc : Bool) (S : T → Bool)
    (hS : ∀ x, S x = true → InBall d q eps inc x ∧ ∀ v, d v x = d q v) :
    Keeps X d q eps inc S where
  inside := fun x hx => (hS x hx).1
  far := fun v x r hv _ hr h1 h2 h3 => by
    by_contra hc
    obtain ⟨y, hy, rfl⟩ := hr
    have := (hS x (by simpa using hc)).2 v
    rw [this] at h2
    refine h3 ?_
    rw [hF.sub_eq _ _ (hfin q hq v hv) (hfin v hv y hy) h1
      (hF.total _ _ (hfin q hq v hv) (hfin v hv y hy) h2)]
    unfold pyAbs
    rw [if_neg (StrictLT.irrefl _)]
    exact h0
  near := fun v x r hv _ hr h1 h2 h3 => by
    by_contra hc
    obtain ⟨y, hy, rfl⟩ := hr
    have := (hS x (by simpa using hc)).2 v
    rw [this] at h2
    exact h1 (hF.total _ _ (hfin v hv y hy) (hfin q hq v hv) h2)

end keeps

theorem Rounded.lt (hv : Rounded val) {x y : R} : val x < val y ↔ x < y := by
  rw [← not_le, ← not_le, hv.le]

theorem Rounded.inj (hv : Rounded val) {x y : R} (h : val x = val y) : x = y :=
  le_antisymm ((hv.le _ _).mp (le_of_eq h)) ((hv.le _ _).mp (le_of_eq h.symm))

/-- A machine number not below the exact distance of two others is not below the rounded
one. -/
theorem Rounded.pyAbs_le (hv : Rounded val) {x y e : R} (h : |val x - val y| ≤ val e) :
    pyAbs (x - y) ≤ e := by
  rw [abs_le] at h
  unfold pyAbs
  split
  · rw [← hv.le, hv.neg, neg_le, ← hv.neg, hv.le]
    exact hv.le_sub _ _ _ (by rw [hv.neg]; exact h.1)
  · exact hv.sub_le _ _ _ h.2

theorem Rounded.lt_abs (hv : Rounded val) {x y e : R} (h : ¬ pyAbs (x - y) ≤ e) :
    val e < |val x - val y| := by
  by_contra hc
  exact h (hv.pyAbs_le (not_lt.mp hc))

theorem Rounded.val_pyAbs (hv : Rounded val) (x : R) : val (pyAbs x) = |val x| := by
  unfold pyAbs
  split
  · rename_i h
    rw [← hv.lt, hv.zero] at h
    rw [hv.neg, abs_of_neg h]
  · rename_i h
    rw [← hv.lt, hv.zero, not_lt] at h
    rw [abs_of_nonneg h]

/-- The two bounds behind the skipping of halves. -/
theorem MetricUpTo.far (hv : Rounded val) {δ : K} {d : T → T → R} (hd : MetricUpTo val δ d)
    {q v x : T} {r : R} (h1 : d q v ≤ r) (h2 : r ≤ d v x) :
    |val (d q v) - val r| ≤ val (d q x) + δ := by
  have h := hd.triangle v q x
  rw [hd.symm v q] at h
  rw [← hv.le] at h1 h2
  rw [abs_of_nonpos (sub_nonpos.mpr h1), neg_sub, sub_le_iff_le_add']
  exact h2.trans (by rw [← add_assoc]; exact h)

theorem MetricUpTo.near (hv : Rounded val) {δ : K} {d : T → T → R} (hd : MetricUpTo val δ d)
    {q v x : T} {r : R} (h1 : r < d q v) (h2 : d v x ≤ r) :
    |val (d q v) - val r| ≤ val (d q x) + δ := by
  have h := hd.triangle q x v
  rw [hd.symm x v] at h
  rw [← hv.lt] at h1
  rw [← hv.le] at h2
  rw [abs_of_nonneg (sub_nonneg.mpr (le_of_lt h1)), sub_le_iff_le_add]
  refine h.trans ?_
  rw [add_right_comm]
  gcongr

theorem WellInBall.le {D : T → T → K} {q : T} {eps : K} {b : Bool} {δ : K} {x : T}
    (h : WellInBall D q eps b δ x) : D q x + δ ≤ eps := by
  unfold WellInBall InBall at h
  split at h
  · exact h
  · exact le_of_lt h

theorem keeps_rounded (hv : Rounded val) {δ : K} (hδ : 0 ≤ δ) {d : T → T → R}
    (hd : MetricUpTo val δ d) (X : List T) (q : T) (eps : R) (inc : Bool) :
    Keeps X d q eps inc (fun x => decide (WellInBall (fun a b => val (d a b)) q (val eps) inc δ x)) where
  inside := by
    intro x hx
    have hx := of_decide_eq_true hx
    unfold WellInBall InBall at hx
    unfold InBall
    split at hx
    · rename_i h; rw [if_pos h, ← hv.le]; exact (le_add_of_nonneg_right hδ).trans hx
    · rename_i h; rw [if_neg h, ← hv.lt]; exact lt_of_le_of_lt (le_add_of_nonneg_right hδ) hx
  far := by
    intro v x r _ _ _ h1 h2 h3
    refine decide_eq_false fun hx => ?_
    exact absurd ((hd.far hv h1 (not_lt.mp h2)).trans hx.le) (not_le.mpr (hv.lt_abs h3))
  near := by
    intro v x r _ _ _ h1 h2 h3
    refine decide_eq_false fun hx => ?_
    exact absurd ((hd.near hv (not_le.mp h1) (not_lt.mp h2)).trans hx.le) (not_le.mpr (hv.lt_abs h3))

theorem prefers_rounded (hv : Rounded val) {δ : K} (hδ : 0 ≤ δ) (f : T → R) :
    Prefers f (fun r x => val r ≤ val (f x) + δ) where
  of_le := fun _ _ h => ((hv.le _ _).mpr h).trans (le_add_of_nonneg_right hδ)
  mono := fun _ _ _ h h' => ((hv.le _ _).mpr h).trans h'

theorem skipsH_rounded (hv : Rounded val) {δ : K} (hδ : 0 ≤ δ) {d : T → T → R}
    (hd : MetricUpTo val δ d) (q : T) :
    SkipsOkH d q (fun r x => val r ≤ val (d q x) + δ) where
  prefers := prefers_rounded hv hδ _
  far := fun v x r y h1 h2 h3 =>
    (le_of_lt (hv.lt_abs (not_le.mpr h3))).trans (hd.far hv h1 h2)
  near := fun v x r y h1 h2 h3 =>
    (le_of_lt (hv.lt_abs (not_le.mpr h3))).trans (hd.near hv h1 h2)

theorem RoundedBy.pyAbs_le (hv : Rounded val) {η : K} (hη : RoundedBy val η) (x y : R) :
    val (pyAbs (x - y)) ≤ |val x - val y| + η := by
  rw [hv.val_pyAbs]
  have h := abs_add_le (val x - val y) (val (x - y) - (val x - val y))
  rw [add_sub_cancel] at h
  exact h.trans (by gcongr; exact hη x y)

theorem skips_rounded (hv : Rounded val) {δ η : K} (hδ : 0 ≤ δ) (hη : RoundedBy val η)
    {d : T → T → R} (hd : MetricUpTo val δ d) (q : T) :
    SkipsOk d q (fun r x => val r ≤ val (d q x) + (δ + η)) where
  prefers := prefers_rounded hv (add_nonneg hδ ((abs_nonneg _).trans (hη 0 0))) _
  far := fun v x r h1 h2 => by
    have h := hη.pyAbs_le hv r (d q v)
    rw [abs_sub_comm] at h
    rw [← add_assoc]
    exact h.trans (by gcongr; exact hd.far hv h1 h2)
  near := fun v x r h1 h2 => by
    have h := hη.pyAbs_le hv r (d q v)
    rw [abs_sub_comm] at h
    rw [← add_assoc]
    exact h.trans (by gcongr; exact hd.near hv h1 h2)

/-- A distance computed with error `u` is a metric up to `3 u`. -/
theorem Computes.metricUpTo {u : K} {D : T → T → K} {d : T → T → R} (hD : PseudoMetric D)
    (h : Computes val u D d) : MetricUpTo val (u + u + u) d where
  symm := h.symm
  triangle := by
    intro x y z
    have a := (abs_le.mp (h.error x z)).2
    have b := (abs_le.mp (h.error x y)).1
    have c := (abs_le.mp (h.error y z)).1
    have t := hD.triangle x y z
    rw [sub_le_iff_le_add] at a
    rw [neg_le_sub_iff_le_add] at b c
    refine a.trans ((add_le_add_right (t.trans (add_le_add b c)) u).trans (le_of_eq ?_))
    abel

theorem Computes.nonneg {u : K} {D : T → T → K} {d : T → T → R} (h : Computes val u D d)
    (x : T) : 0 ≤ u := (abs_nonneg _).trans (h.error x x)

end Verif

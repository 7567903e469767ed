import Verif.Spec.InPlace
import Verif.Spec.CoverParams
import Verif.Proof.Rounding

/-!
# Searches of trees with other distances than those they were built with
-/

set_option autoImplicit false
set_option linter.unusedSectionVars false

namespace Verif

variable {T R : Type}

section ball
variable [LE R] [LT R] [DecidableLE R] [DecidableLT R] [StrictLT R] [Zero R] [Neg R] [Sub R]

theorem later_ball {dt d : T → T → R} (hsy : ∀ x y, d x y = d y x) (X : List T) (kind : String)
    (hk : IsKind kind) (p : VPParams R) (hp : 1 ≤ p.leafCapacity) (ρ : ℕ → ℕ) :
    ∃ t, VPTree.build X dt kind p ρ = .ok t ∧ (X ≠ [] → ∀ q eps inc, ∃ out,
      (t.later d).ballSearch q eps inc = .ok out ∧ ∀ S, Keeps2 X dt d q eps inc S →
        Between S (fun x => decide (InBall d q eps inc x)) X out) := by
  have key : ∀ (r : Py (List T)) (q : T) (eps : R) (inc : Bool), (∀ S, Keeps2 X dt d q eps inc S →
      ∃ out, r = .ok out ∧ Between S (fun x => decide (InBall d q eps inc x)) X out) →
      ∃ out, r = .ok out ∧ ∀ S, Keeps2 X dt d q eps inc S →
        Between S (fun x => decide (InBall d q eps inc x)) X out := by
    intro r q eps inc h
    obtain ⟨out, e, _⟩ := h (fun _ => false) ⟨fun _ hx => by simp at hx,
      fun _ _ _ _ _ _ _ _ _ => rfl, fun _ _ _ _ _ _ _ _ _ => rfl⟩
    refine ⟨out, e, fun S hS => ?_⟩
    obtain ⟨out', e', h'⟩ := h S hS
    rw [e] at e'
    cases e'
    exact h'
  rcases hk with rfl | rfl
  · obtain ⟨a, e1, wf, hdata, ht⟩ := flatBuild_ok dt ρ p hp X
    refine ⟨.flat dt a, by simp [VPTree.build, e1], ?_⟩
    intro hX q eps inc
    refine key _ q eps inc fun S hS => ?_
    have ht := ht hX
    rw [← hdata] at ht
    have := flatBallSearch_between wf ht q eps inc (S := S) (d := d) (by rw [hdata]; exact hS)
    rw [hdata] at this
    exact this
  · obtain ⟨t, a, e1, wf, hdata, _, hperm, _, hgood⟩ := hierBuild_ok dt ρ p hp X
    refine ⟨.hier dt t a, by simp [VPTree.build, e1], ?_⟩
    intro _ q eps inc
    refine key _ q eps inc fun S hS => ?_
    obtain ⟨out, e2, h2⟩ := hierBallRec_between hsy wf q eps inc (S := S)
      (by rw [hdata]; exact hS) t (fun x hx => by rw [hdata]; exact hperm.subset hx) hgood []
    exact ⟨out, by simpa [VPTree.ballSearch, VPTree.later, hierBallSearch] using e2, h2.perm hperm⟩

end ball

section knn
variable [LinearOrder R] [Zero R] [Neg R] [Sub R]

theorem later_knn {dt d : T → T → R} (hsy : ∀ x y, d x y = d y x) (X : List T) (kind : String)
    (hk : IsKind kind) (p : VPParams R) (hp : 1 ≤ p.leafCapacity) (ρ : ℕ → ℕ) :
    ∃ t, VPTree.build X dt kind p ρ = .ok t ∧ (X ≠ [] → ∀ q (L : R → T → Prop) k,
      SkipsOk2 X dt d q L → SkipsOkH2 X dt d q L → ∃ out,
      (t.later d).knnSearch q k = .ok out ∧ KnnUpTo d q L k X out) := by
  rcases hk with rfl | rfl
  · obtain ⟨a, e1, wf, hdata, ht⟩ := flatBuild_ok dt ρ p hp X
    refine ⟨.flat dt a, by simp [VPTree.build, e1], ?_⟩
    intro hX q L k hS _
    have ht := ht hX
    rw [← hdata] at ht
    have := flatKnnSearch_upTo wf ht q (by rw [hdata]; exact hS) k
    rw [hdata] at this
    exact this
  · obtain ⟨t, a, e1, wf, hdata, _, hperm, _, hgood⟩ := hierBuild_ok dt ρ p hp X
    refine ⟨.hier dt t a, by simp [VPTree.build, e1], ?_⟩
    intro _ q L k _ hS
    obtain ⟨hp', e2, h2⟩ := hierKnnRec_upTo hsy wf q (by rw [hdata]; exact hS) k t
      hgood [] MaxHeap.init (KInv.nil _ _ _)
    rw [List.nil_append] at h2
    obtain ⟨out, e3, h3⟩ := knnItems_ok (h2.perm hperm)
    exact ⟨out, by simp [VPTree.knnSearch, VPTree.later, hierKnnSearch, e2, e3], h3⟩

end knn

section group
variable [AddCommGroup R] [LinearOrder R] [IsOrderedAddMonoid R]

/-- Distances among entries that changed by at most `δ`. -/
def NearlySame (X : List T) (dt d : T → T → R) (δ : R) : Prop :=
  0 ≤ δ ∧ ∀ x ∈ X, ∀ z ∈ X, |d x z - dt x z| ≤ δ

theorem PseudoMetric.far_later {dt d : T → T → R} (hd : PseudoMetric d) {X : List T} {δ : R}
    (h : NearlySame X dt d δ) {q v x : T} {r : R} (hv : v ∈ X) (hx : x ∈ X) (h1 : d q v ≤ r)
    (h2 : r ≤ dt v x) : |d q v - r| ≤ d q x + δ := by
  have hc := (abs_le.mp (h.2 v hv x hx)).1
  have ht := hd.triangle v q x
  rw [hd.symm v q] at ht
  rw [abs_sub_comm, abs_of_nonneg (sub_nonneg.mpr h1), sub_le_iff_le_add]
  rw [neg_le_sub_iff_le_add] at hc
  calc r ≤ dt v x := h2
    _ ≤ d v x + δ := hc
    _ ≤ d q v + d q x + δ := by gcongr
    _ = d q x + δ + d q v := by abel

theorem PseudoMetric.near_later {dt d : T → T → R} (hd : PseudoMetric d) {X : List T} {δ : R}
    (h : NearlySame X dt d δ) {q v x : T} {r : R} (hv : v ∈ X) (hx : x ∈ X) (h1 : r ≤ d q v)
    (h2 : dt v x ≤ r) : |d q v - r| ≤ d q x + δ := by
  have hc := (abs_le.mp (h.2 v hv x hx)).2
  have ht := hd.triangle q x v
  rw [hd.symm x v] at ht
  rw [abs_of_nonneg (sub_nonneg.mpr h1), sub_le_iff_le_add]
  rw [sub_le_iff_le_add] at hc
  calc d q v ≤ d q x + d v x := ht
    _ ≤ d q x + (δ + dt v x) := by gcongr
    _ ≤ d q x + (δ + r) := by gcongr
    _ = d q x + δ + r := by abel

theorem keeps_later {dt d : T → T → R} (hd : PseudoMetric d) {X : List T} {δ : R}
    (h : NearlySame X dt d δ) (q : T) (eps : R) (inc : Bool) :
    Keeps2 X dt d q eps inc fun x => decide (InBall d q eps inc x ∧ d q x + δ ≤ eps) where
  inside := fun x hx => (of_decide_eq_true hx).1
  far := fun v x r hv hx _ h1 h2 h3 => decide_eq_false fun hc => h3 <| by
    rw [pyAbs_eq]
    exact (hd.far_later h hv hx h1 (not_lt.mp h2)).trans hc.2
  near := fun v x r hv hx _ h1 h2 h3 => decide_eq_false fun hc => h3 <| by
    rw [pyAbs_eq]
    exact (hd.near_later h hv hx (le_of_not_ge h1) (not_lt.mp h2)).trans hc.2

theorem prefers_later (f : T → R) {δ : R} (hδ : 0 ≤ δ) : Prefers f (fun r x => r ≤ f x + δ) :=
  ⟨fun _ _ h => h.trans (le_add_of_nonneg_right hδ), fun _ _ _ h h' => h.trans h'⟩

theorem skips_later {dt d : T → T → R} (hd : PseudoMetric d) {X : List T} {δ : R}
    (h : NearlySame X dt d δ) (q : T) : SkipsOk2 X dt d q (fun r x => r ≤ d q x + δ) where
  prefers := prefers_later _ h.1
  far := fun v x r hv hx h1 h2 => by
    show _ ≤ _
    rw [pyAbs_eq, abs_sub_comm]
    exact hd.far_later h hv hx h1 h2
  near := fun v x r hv hx h1 h2 => by
    show _ ≤ _
    rw [pyAbs_eq, abs_sub_comm]
    exact hd.near_later h hv hx (le_of_lt h1) h2

theorem skipsH_later {dt d : T → T → R} (hd : PseudoMetric d) {X : List T} {δ : R}
    (h : NearlySame X dt d δ) (q : T) : SkipsOkH2 X dt d q (fun r x => r ≤ d q x + δ) where
  prefers := prefers_later _ h.1
  far := fun v x r y hv hx h1 h2 h3 => by
    rw [pyAbs_eq] at h3
    exact (le_of_lt h3).trans (hd.far_later h hv hx h1 h2)
  near := fun v x r y hv hx h1 h2 h3 => by
    rw [pyAbs_eq] at h3
    exact (le_of_lt h3).trans (hd.near_later h hv hx (le_of_lt h1) h2)

theorem ChangedBy.nearly {metric : T → T → R} {σ σ' : ℕ → T} {X : List (RowRef T)} {δ : R}
    (h : ChangedBy metric σ σ' X δ) : NearlySame X (inMemory σ metric) (inMemory σ' metric) δ := h

theorem NearlySame.enumerate {X : List T} {dt d : T → T → R} {δ : R} (h : NearlySame X dt d δ) :
    NearlySame (enumerate X) (pullback snd dt) (pullback snd d) δ := by
  refine ⟨h.1, ?_⟩
  intro x hx z hz
  obtain ⟨_, _, h1⟩ := (mem_enumerate X x).mp hx
  obtain ⟨_, _, h2⟩ := (mem_enumerate X z).mp hz
  exact h.2 _ (List.mem_of_getElem? h1) _ (List.mem_of_getElem? h2)

theorem MovedBy.changed {metric : T → T → R} (hd : PseudoMetric metric) {σ σ' : ℕ → T}
    {X : List (RowRef T)} {η : R} (h : MovedBy metric σ σ' X η) :
    ChangedBy metric σ σ' X (η + η) := by
  refine ⟨add_nonneg h.1 h.1, ?_⟩
  intro x hx z hz
  have hx' := h.2 x hx
  have hz' := h.2 z hz
  rw [abs_le, neg_le_sub_iff_le_add, sub_le_iff_le_add]
  constructor
  · calc metric (x.read σ) (z.read σ)
        ≤ metric (x.read σ) (x.read σ') + metric (x.read σ') (z.read σ) := hd.triangle _ _ _
      _ ≤ metric (x.read σ) (x.read σ') +
          (metric (x.read σ') (z.read σ') + metric (z.read σ') (z.read σ)) := by
        gcongr; exact hd.triangle _ _ _
      _ ≤ η + (metric (x.read σ') (z.read σ') + η) := by
        rw [hd.symm (z.read σ') (z.read σ)]; gcongr
      _ = metric (x.read σ') (z.read σ') + (η + η) := by abel
  · calc metric (x.read σ') (z.read σ')
        ≤ metric (x.read σ') (x.read σ) + metric (x.read σ) (z.read σ') := hd.triangle _ _ _
      _ ≤ metric (x.read σ') (x.read σ) +
          (metric (x.read σ) (z.read σ) + metric (z.read σ) (z.read σ')) := by
        gcongr; exact hd.triangle _ _ _
      _ ≤ η + (metric (x.read σ) (z.read σ) + η) := by
        rw [hd.symm (x.read σ') (x.read σ)]; gcongr
      _ = η + η + metric (x.read σ) (z.read σ) := by abel

/-- The positions found by a `BallCover` searched later. -/
theorem ballIn_ok (P : BallParams T R) (H : BallOK P) (σ σ' : ℕ → T) (ρ : ℕ → ℕ)
    (X : List (RowRef T)) (hX : X ≠ []) :
    ∃ c, ballFitIn P σ ρ X = .ok c ∧ ∀ q, ∃ out, ballSearchIn P σ' c q = .ok out ∧ out.Nodup ∧
      (∀ j ∈ out, ∃ z, X[j]? = some z ∧ P.metric (q.read σ') (z.read σ') < P.radius) ∧
      ∀ δ, ChangedBy P.metric σ σ' X δ → ∀ (j : ℕ) z, X[j]? = some z →
        P.metric (q.read σ') (z.read σ') < P.radius →
        P.metric (q.read σ') (z.read σ') + δ ≤ P.radius → j ∈ out := by
  have hd := (H.metric.pullback (RowRef.read σ')).pullback (snd (T := RowRef T))
  obtain ⟨t, h1, h2⟩ := later_ball (dt := pullback (snd (T := RowRef T)) (inMemory σ P.metric))
    (d := pullback (snd (T := RowRef T)) (inMemory σ' P.metric)) hd.symm (enumerate X) P.kind
    H.kind ⟨P.leafCapacity, numOr P.leafRadius P.radius, P.pivoting⟩ H.capacity ρ
  refine ⟨⟨⟨P.radius, inMemory σ P.metric, P.kind, P.leafCapacity, P.leafRadius, P.pivoting⟩,
    some ⟨P.radius, t⟩⟩, by simp [ballFitIn, BallCover.fit, h1], ?_⟩
  intro q
  obtain ⟨out, h3, h4⟩ := h2 (enumerate_ne_nil hX) (-1, q) P.radius false
  have hsub := (h4 (fun _ => false) ⟨fun _ hx => by simp at hx,
      fun _ _ _ _ _ _ _ _ _ => rfl, fun _ _ _ _ _ _ _ _ _ => rfl⟩).2
  have hex := firsts_filter_exact X
    (fun z => P.metric (q.read σ') (z.read σ') < P.radius) _ (List.Perm.refl _)
  have hsub' : (firsts out).Subperm (firsts ((enumerate X).filter
      (fun e => decide (P.metric (q.read σ') (e.2.read σ') < P.radius)))) := by
    obtain ⟨l, h5, h6⟩ := hsub
    refine ⟨firsts l, h5.map _, List.Sublist.map _ ?_⟩
    simpa [InBall, Verif.pullback, inMemory, snd] using h6
  refine ⟨firsts out, by simp [ballSearchIn, BallCover.search, h3], ?_, ?_, ?_⟩
  · obtain ⟨l, hp, hs⟩ := hsub'
    exact hp.nodup_iff.mp (hex.1.sublist hs)
  · intro j hj
    exact (hex.2 j).mp (hsub'.subset hj)
  · intro δ hδ j z hz hlt hle
    have hb := (h4 _ (keeps_later hd hδ.nearly.enumerate (-1, q) P.radius false)).1
    have hm : ((j : ℤ), z) ∈ out := hb.subset (List.mem_filter.mpr
      ⟨(mem_enumerate X _).mpr ⟨j, rfl, hz⟩, decide_eq_true ⟨by
        simpa [InBall, Verif.pullback, inMemory, snd] using hlt, hle⟩⟩)
    exact List.mem_map.mpr ⟨_, hm, by simp⟩

/-- The positions found by a `KNNCover` searched later. -/
theorem knnIn_ok (P : KnnParams T R) (H : KnnOK P) (σ σ' : ℕ → T) (ρ : ℕ → ℕ)
    (X : List (RowRef T)) (hX : X ≠ []) :
    ∃ c, knnFitIn P σ ρ X = .ok c ∧ ∀ δ, ChangedBy P.metric σ σ' X δ → ∀ q, ∃ out,
      knnSearchIn P σ' c q = .ok out ∧ out.Nodup ∧ out.length = min P.neighbors X.length ∧
      (∀ i ∈ out, i < X.length) ∧ ∀ i ∈ out, ∀ (j : ℕ), j ∉ out → ∀ xi xj, X[i]? = some xi →
        X[j]? = some xj → P.metric (q.read σ') (xi.read σ') ≤
          P.metric (q.read σ') (xj.read σ') + δ := by
  have hd := (H.metric.pullback (RowRef.read σ')).pullback (snd (T := RowRef T))
  obtain ⟨t, h1, h2⟩ := later_knn (dt := pullback (snd (T := RowRef T)) (inMemory σ P.metric))
    (d := pullback (snd (T := RowRef T)) (inMemory σ' P.metric)) hd.symm (enumerate X) P.kind
    H.kind ⟨numOr P.leafCapacity P.neighbors, P.leafRadius, P.pivoting⟩ (numOr_pos _ _ H.neighbors) ρ
  refine ⟨⟨⟨P.neighbors, inMemory σ P.metric, P.kind, P.leafCapacity, P.leafRadius, P.pivoting⟩,
    some ⟨P.neighbors, t⟩⟩, by simp [knnFitIn, KnnCover.fit, h1], ?_⟩
  intro δ hδ q
  obtain ⟨out, h3, hlen, left, hperm, hle⟩ := h2 (enumerate_ne_nil hX) (-1, q) _ P.neighbors
    (skips_later hd hδ.nearly.enumerate _) (skipsH_later hd hδ.nearly.enumerate _)
  have hids : (firsts out ++ firsts left).Perm (firsts (enumerate X)) := by
    have := hperm.map (fun e : ℤ × RowRef T => e.1.toNat)
    simpa [firsts] using this
  have hnd := hids.nodup_iff.mpr (firsts_enumerate_nodup X)
  refine ⟨firsts out, by simp [knnSearchIn, KnnCover.search, h3], (List.nodup_append.mp hnd).1,
    ?_, ?_, ?_⟩
  · simpa [firsts, enumerate_length] using hlen
  · intro i hi
    have : i ∈ firsts (enumerate X) := hids.subset (List.mem_append_left _ hi)
    rw [enumerate, firsts_enumFrom] at this
    simpa [List.mem_range'_1] using this
  · intro i hi j hj xi xj hxi hxj
    obtain ⟨e, he, hei⟩ := List.mem_map.mp hi
    obtain ⟨j', hj1, hj2⟩ := (mem_enumerate X e).mp (hperm.subset (List.mem_append_left _ he))
    have hij : j' = i := by rw [hj1] at hei; simpa using hei
    subst hij
    rw [hj2] at hxi
    cases hxi
    have hmem : ((j : ℤ), xj) ∈ out ++ left :=
      hperm.symm.subset ((mem_enumerate X _).mpr ⟨j, rfl, hxj⟩)
    rcases List.mem_append.mp hmem with hmem | hmem
    · exact absurd (List.mem_map.mpr ⟨_, hmem, by simp⟩) hj
    · exact hle e he _ hmem

end group

end Verif

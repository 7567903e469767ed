import Verif.Proof.VPTree

/-!
# C09 - C16, C62: vantage-point trees
-/

set_option linter.unusedSectionVars false

namespace Verif

variable {T R : Type} [AddCommGroup R] [LinearOrder R] [IsOrderedAddMonoid R]

/-- The distance used in the concrete examples. -/
def absDist (x y : ℤ) : ℤ := |x - y|

theorem absDist_pseudo : PseudoMetric absDist :=
  ⟨fun x => by simp [absDist], fun x y => abs_sub_comm x y, fun x y z => abs_sub_le x y z⟩

/-- **C09.** On a flat tree over a non-empty dataset `ball_search` is exact. -/
theorem C09_flat_ball_exact {d : T → T → R} (hd : PseudoMetric d) (X : List T) (hX : X ≠ [])
    (p : VPParams R) (hp : 1 ≤ p.leafCapacity) (ρ : ℕ → ℕ) :
    ∃ t, VPTree.build X d "flat" p ρ = .ok t ∧
      ∀ (q : T) (eps : R) (inclusive : Bool), ∃ out,
        t.ballSearch q eps inclusive = .ok out ∧ IsBallAnswer d q eps inclusive X out := by
  obtain ⟨a, e1, wf, hdata, ht⟩ := flatBuild_ok d ρ p hp X
  refine ⟨.flat d a, by simp [VPTree.build, e1], ?_⟩
  intro q eps inc
  have := flatBallSearch_ok hd wf (by rw [hdata]; exact ht hX) q eps inc
  rw [hdata] at this
  exact this

/-- Non-vacuity: a dataset with duplicates and ties, and the exact answer. -/
example : ∃ t, VPTree.build [5, 1, 3, 3, 9, 1] absDist "flat" ⟨1, 0, "random"⟩ (fun n => n) =
    .ok t ∧ ∃ out, t.ballSearch 2 1 true = .ok out ∧ out.Perm [1, 3, 3, 1] := by
  obtain ⟨t, h1, h2⟩ := C09_flat_ball_exact absDist_pseudo [5, 1, 3, 3, 9, 1] (by simp)
    ⟨1, 0, "random"⟩ (le_refl _) (fun n => n)
  obtain ⟨out, h3, h4⟩ := h2 2 1 true
  exact ⟨t, h1, out, h3, h4⟩

/-- **C10.** On a hierarchical tree `ball_search` is exact, also when empty. -/
theorem C10_hier_ball_exact {d : T → T → R} (hd : PseudoMetric d) (X : List T)
    (p : VPParams R) (hp : 1 ≤ p.leafCapacity) (ρ : ℕ → ℕ) :
    ∃ t, VPTree.build X d "hierarchical" p ρ = .ok t ∧
      ∀ (q : T) (eps : R) (inclusive : Bool), ∃ out,
        t.ballSearch q eps inclusive = .ok out ∧ IsBallAnswer d q eps inclusive X out := by
  obtain ⟨t, a, e1, wf, hdata, _, hperm, _, hgood⟩ := hierBuild_ok d ρ p hp X
  refine ⟨.hier d t a, by simp [VPTree.build, e1], ?_⟩
  intro q eps inc
  obtain ⟨out, e2, h2⟩ := hierBallRec_ok hd wf q eps inc t
    (fun x hx => by rw [hdata]; exact hperm.subset hx) hgood []
  exact ⟨out, by simpa [VPTree.ballSearch, hierBallSearch] using e2,
    List.Perm.trans h2 (hperm.filter _)⟩

example : ∃ t, VPTree.build [5, 1, 3, 3, 9, 1] absDist "hierarchical" ⟨1, 0, "furthest"⟩
    (fun n => n) = .ok t ∧ ∃ out, t.ballSearch 2 1 false = .ok out ∧ out = [] := by
  obtain ⟨t, h1, h2⟩ := C10_hier_ball_exact absDist_pseudo [5, 1, 3, 3, 9, 1]
    ⟨1, 0, "furthest"⟩ (le_refl _) (fun n => n)
  obtain ⟨out, h3, h4⟩ := h2 2 1 false
  exact ⟨t, h1, out, h3, h4.eq_nil⟩

/-- **C11.** On a flat tree over a non-empty dataset `knn_search` is exact. -/
theorem C11_flat_knn_exact {d : T → T → R} (hd : PseudoMetric d) (X : List T) (hX : X ≠ [])
    (p : VPParams R) (hp : 1 ≤ p.leafCapacity) (ρ : ℕ → ℕ) :
    ∃ t, VPTree.build X d "flat" p ρ = .ok t ∧
      ∀ (q : T) (k : ℕ), ∃ out, t.knnSearch q k = .ok out ∧ IsKnnAnswer d q k X out := by
  obtain ⟨a, e1, wf, hdata, ht⟩ := flatBuild_ok d ρ p hp X
  refine ⟨.flat d a, by simp [VPTree.build, e1], ?_⟩
  intro q k
  have := flatKnnSearch_ok hd wf (by rw [hdata]; exact ht hX) q k
  rw [hdata] at this
  exact this

/-- Non-vacuity: three of six entries are returned. -/
example : ∃ t, VPTree.build [5, 1, 3, 3, 9, 1] absDist "flat" ⟨1, 0, "random"⟩ (fun n => n) =
    .ok t ∧ ∃ out, t.knnSearch 4 3 = .ok out ∧ out.length = 3 := by
  obtain ⟨t, h1, h2⟩ := C11_flat_knn_exact absDist_pseudo [5, 1, 3, 3, 9, 1] (by simp)
    ⟨1, 0, "random"⟩ (le_refl _) (fun n => n)
  obtain ⟨out, h3, h4⟩ := h2 4 3
  exact ⟨t, h1, out, h3, h4.1⟩

/-- **C12.** On a hierarchical tree `knn_search` is exact, also when empty. -/
theorem C12_hier_knn_exact {d : T → T → R} (hd : PseudoMetric d) (X : List T)
    (p : VPParams R) (hp : 1 ≤ p.leafCapacity) (ρ : ℕ → ℕ) :
    ∃ t, VPTree.build X d "hierarchical" p ρ = .ok t ∧
      ∀ (q : T) (k : ℕ), ∃ out, t.knnSearch q k = .ok out ∧ IsKnnAnswer d q k X out := by
  obtain ⟨t, a, e1, wf, hdata, _, hperm, _, hgood⟩ := hierBuild_ok d ρ p hp X
  refine ⟨.hier d t a, by simp [VPTree.build, e1], ?_⟩
  intro q k
  obtain ⟨hp', e2, h2⟩ := hierKnnRec_ok hd wf q k t hgood [] MaxHeap.init (KInv.nil _ _ _)
  rw [List.nil_append] at h2
  obtain ⟨out, e3, h3⟩ := knnItems_ok (h2.perm hperm)
  exact ⟨out, by simp [VPTree.knnSearch, hierKnnSearch, e2, e3], h3⟩

example : ∃ t, VPTree.build [5, 1, 3, 3, 9, 1] absDist "hierarchical" ⟨2, 0, "disabled"⟩
    (fun n => n) = .ok t ∧ ∃ out, t.knnSearch 4 7 = .ok out ∧ out.length = 6 := by
  obtain ⟨t, h1, h2⟩ := C12_hier_knn_exact absDist_pseudo [5, 1, 3, 3, 9, 1]
    ⟨2, 0, "disabled"⟩ (by simp) (fun n => n)
  obtain ⟨out, h3, h4⟩ := h2 4 7
  exact ⟨t, h1, out, h3, h4.1⟩

/-- **C13 (flat).** For any distance function, building a flat tree succeeds,
every dataset entry is stored exactly once, every range of the tree is within the
array, and below a non-terminal range the near half is within the stored radius
of the vantage point and the far half at or beyond it. -/
theorem C13_flat_build (d : T → T → R) (X : List T) (p : VPParams R)
    (hp : 1 ≤ p.leafCapacity) (ρ : ℕ → ℕ) :
    ∃ a, VPTree.build X d "flat" p ρ = .ok (.flat d a) ∧
      (storedIn a 0 X.length).Perm X ∧
      (X ≠ [] → ∀ s e, FlatRange a s e → s < X.length ∧ s ≤ e ∧ e ≤ X.length ∧
        (flagAt a s true ∨ (flagAt a s false ∧ s + 1 ≤ (s + e) / 2 ∧ (s + e) / 2 < e ∧
          ∃ v r, storedAt a s = some v ∧ a.distances[s]? = some r ∧
            (∀ x ∈ storedIn a (s + 1) ((s + e) / 2), d v x ≤ r) ∧
            (∀ x ∈ storedIn a ((s + e) / 2) e, r ≤ d v x)))) := by
  obtain ⟨a, e1, wf, hdata, ht⟩ := flatBuild_ok d ρ p hp X
  refine ⟨a, by simp [VPTree.build, e1], ?_, ?_⟩
  · rw [storedIn_eq_pts _ _ _ (by rw [wf.idx_len, hdata])]
    have := wf.pts_all
    rw [hdata] at this
    exact this
  · intro hX s e hr
    have t := FlatRange.tree (by rw [hdata]; exact ht hX) hr
    have hb := t.bounds
    rw [hdata] at hb
    refine ⟨hb.1, hb.2.1, hb.2.2, ?_⟩
    rw [flagAt_iff, flagAt_iff]
    cases t with
    | leaf _ _ _ ht _ => exact .inl ht
    | node v r hse he ht hv hrr _ hl hh left right =>
      refine .inr ⟨ht, by omega, by omega, v, r, by rw [storedAt_eq_pt]; exact hv, hrr, ?_, ?_⟩
      · intro x hx
        rw [storedIn_eq_pts _ _ _ (by rw [wf.idx_len]; omega)] at hx
        obtain ⟨m, m1, m2, m3⟩ := VPArray.mem_pts hx
        exact not_lt.mp (hl m x m1 m2 m3)
      · intro x hx
        rw [storedIn_eq_pts _ _ _ (by rw [wf.idx_len]; omega)] at hx
        obtain ⟨m, m1, m2, m3⟩ := VPArray.mem_pts hx
        exact not_lt.mp (hh m x m1 m2 m3)

/-- **C13 (hierarchical).** Same for the hierarchical tree, with the entries
below each node. -/
theorem C13_hier_build (d : T → T → R) (X : List T) (p : VPParams R)
    (hp : 1 ≤ p.leafCapacity) (ρ : ℕ → ℕ) :
    ∃ t a, VPTree.build X d "hierarchical" p ρ = .ok (.hier d t a) ∧
      (entries a t).Perm X ∧
      (∀ s e, SubTree t (.leaf s e) → e ≤ X.length) ∧
      (∀ r v near far, SubTree t (.node r v near far) →
        (∀ x ∈ entries a near, d v x ≤ r) ∧ (∀ x ∈ entries a far, r ≤ d v x)) := by
  obtain ⟨t, a, e1, wf, hdata, hw, hperm, _, hgood⟩ := hierBuild_ok d ρ p hp X
  refine ⟨t, a, by simp [VPTree.build, e1], ?_, ?_, ?_⟩
  · rw [entries_eq_pts a wf (s := 0) (by rw [hdata]; exact hw)]
    exact hperm
  · intro s e hs
    exact (hs.within hw).2
  · intro r v near far hs
    have w := hs.within hw
    have g := hs.good hgood
    rw [← hdata] at w
    rw [entries_eq_pts a wf w.1, entries_eq_pts a wf w.2]
    exact ⟨fun x hx => not_lt.mp (g.1 x hx), fun x hx => not_lt.mp (g.2.1 x hx)⟩

/-- Non-vacuity: a flat tree whose root is an internal node. -/
example : ∃ a, VPTree.build [5, 1, 3, 8] absDist "flat" ⟨1, 0, "disabled"⟩ (fun n => n) =
    .ok (.flat absDist a) ∧ flagAt a 0 false ∧ storedAt a 0 = some 5 ∧
      a.distances[0]? = some 3 :=
  ⟨_, rfl, ⟨_, rfl, rfl⟩, rfl, rfl⟩

example : ∃ r l h a, VPTree.build [5, 1, 3, 8] absDist "hierarchical" ⟨1, 0, "disabled"⟩
    (fun n => n) = .ok (.hier absDist (.node r 5 l h) a) ∧ r = 3 := ⟨_, _, _, _, rfl, rfl⟩

/-- The two kinds of tree accepted by the constructor. -/
def IsKind (kind : String) : Prop := kind = "flat" ∨ kind = "hierarchical"

/-- **C14.** Kind, leaf parameters, pivoting and random draws never change the
answers: two trees over the same data return the same ball up to order, and
nearest neighbours at the same distances. -/
theorem C14_configuration_independent {d : T → T → R} (hd : PseudoMetric d) (X : List T)
    (hX : X ≠ []) (kind kind' : String) (hk : IsKind kind) (hk' : IsKind kind')
    (p p' : VPParams R) (hp : 1 ≤ p.leafCapacity) (hp' : 1 ≤ p'.leafCapacity) (ρ ρ' : ℕ → ℕ) :
    ∃ t t', VPTree.build X d kind p ρ = .ok t ∧ VPTree.build X d kind' p' ρ' = .ok t' ∧
      (∀ q eps inclusive, ∃ out out', t.ballSearch q eps inclusive = .ok out ∧
        t'.ballSearch q eps inclusive = .ok out' ∧ out.Perm out') ∧
      (∀ q k, ∃ out out', t.knnSearch q k = .ok out ∧ t'.knnSearch q k = .ok out' ∧
        (out.map (d q)).insertionSort (· ≤ ·) = (out'.map (d q)).insertionSort (· ≤ ·)) := by
  have key : ∀ kind p, IsKind kind → 1 ≤ p.leafCapacity → ∀ ρ, ∃ t : VPTree T R,
      VPTree.build X d kind p ρ = .ok t ∧
      (∀ q eps b, ∃ out, t.ballSearch q eps b = .ok out ∧ IsBallAnswer d q eps b X out) ∧
      (∀ q k, ∃ out, t.knnSearch q k = .ok out ∧ IsKnnAnswer d q k X out) := by
    intro kind p hk hp ρ
    rcases hk with rfl | rfl
    · obtain ⟨t, h1, h2⟩ := C09_flat_ball_exact hd X hX p hp ρ
      obtain ⟨t', h1', h2'⟩ := C11_flat_knn_exact hd X hX p hp ρ
      rw [h1] at h1'; cases h1'
      exact ⟨t, h1, h2, h2'⟩
    · obtain ⟨t, h1, h2⟩ := C10_hier_ball_exact hd X p hp ρ
      obtain ⟨t', h1', h2'⟩ := C12_hier_knn_exact hd X p hp ρ
      rw [h1] at h1'; cases h1'
      exact ⟨t, h1, h2, h2'⟩
  obtain ⟨t, h1, h2, h3⟩ := key kind p hk hp ρ
  obtain ⟨t', h1', h2', h3'⟩ := key kind' p' hk' hp' ρ'
  refine ⟨t, t', h1, h1', ?_, ?_⟩
  · intro q eps b
    obtain ⟨o, e, a⟩ := h2 q eps b
    obtain ⟨o', e', a'⟩ := h2' q eps b
    exact ⟨o, o', e, e', List.Perm.trans a a'.symm⟩
  · intro q k
    obtain ⟨o, e, a⟩ := h3 q k
    obtain ⟨o', e', a'⟩ := h3' q k
    exact ⟨o, o', e, e', by rw [a.distances, a'.distances]⟩

/-- Non-vacuity: two different configurations. -/
example := C14_configuration_independent absDist_pseudo [5, 1, 3, 3, 9, 1] (by simp)
  "flat" "hierarchical" (.inl rfl) (.inr rfl) ⟨1, 0, "random"⟩ ⟨4, 2, "furthest"⟩
  (by simp) (by simp) (fun n => n) (fun n => 7 * n)

/-- **C15 (violation).** Every search on an empty flat tree raises `IndexError`,
although the tree itself is built. -/
theorem C15_empty_flat_violation (d : T → T → R) (p : VPParams R) (ρ : ℕ → ℕ) :
    ∃ t, VPTree.build [] d "flat" p ρ = .ok t ∧
      (∀ q eps b, t.ballSearch q eps b = .error .indexError) ∧
      (∀ q k, t.knnSearch q k = .error .indexError) :=
  ⟨.flat d (flatInit []), rfl, fun _ _ _ => rfl, fun _ _ => rfl⟩

/-- **C15 (part that holds).** Searches on an empty hierarchical tree return the
empty list. Missing: the same for the flat kind, see `C15_empty_flat_violation`. -/
theorem C15_empty_hier_partial (d : T → T → R) (p : VPParams R) (ρ : ℕ → ℕ) :
    ∃ t, VPTree.build [] d "hierarchical" p ρ = .ok t ∧
      (∀ q eps b, t.ballSearch q eps b = .ok []) ∧
      (∀ q k, t.knnSearch q k = .ok []) := by
  refine ⟨.hier d (.leaf 0 0) (hierInit []), rfl, fun _ _ _ => rfl, fun _ k => ?_⟩
  cases k <;> rfl

/-- **C16 (leaf capacity).** With `leaf_capacity = 0` the loop building a flat
tree over `[0, 1, 2, 3]` runs for ever: no number of steps is enough. -/
theorem C16_zero_capacity_diverges (ρ : ℕ → ℕ) (steps : ℕ) :
    flatBuildLoop absDist ρ ⟨0, 0, "disabled"⟩ steps [(0, 4)] ⟨flatInit [0, 1, 2, 3], 0⟩ =
      .error .diverge := by
  have hloop : ∀ (f : ℕ) rest (x y : ℤ),
      flatBuildLoop absDist ρ ⟨0, 0, "disabled"⟩ (f + 2) ((1, 2) :: rest)
        ⟨⟨[0, 1, 2, 3], [2, 1, x, y], [0, 1, 2, 3], some [false, false, true, false]⟩, 0⟩ =
      flatBuildLoop absDist ρ ⟨0, 0, "disabled"⟩ f ((1, 2) :: rest)
        ⟨⟨[0, 1, 2, 3], [2, 1, 1, y], [0, 1, 2, 3], some [false, false, true, false]⟩, 0⟩ :=
    fun f rest x y => rfl
  have hstart : ∀ f : ℕ,
      flatBuildLoop absDist ρ ⟨0, 0, "disabled"⟩ (f + 3) [(0, 4)] ⟨flatInit [0, 1, 2, 3], 0⟩ =
      flatBuildLoop absDist ρ ⟨0, 0, "disabled"⟩ f [(1, 2), (2, 4)]
        ⟨⟨[0, 1, 2, 3], [2, 1, 1, 3], [0, 1, 2, 3], some [false, false, true, false]⟩, 0⟩ :=
    fun f => rfl
  have hdiv : ∀ f : ℕ,
      flatBuildLoop absDist ρ ⟨0, 0, "disabled"⟩ f [(1, 2), (2, 4)]
        ⟨⟨[0, 1, 2, 3], [2, 1, 1, 3], [0, 1, 2, 3], some [false, false, true, false]⟩, 0⟩ =
      .error .diverge := by
    intro f
    induction f using Nat.twoStepInduction with
    | zero => rfl
    | one => rfl
    | more n ih _ => rw [hloop]; exact ih
  match steps with
  | 0 => rfl
  | 1 => rfl
  | 2 => rfl
  | f + 3 => rw [hstart]; exact hdiv f

/-- A symmetric function, zero exactly on the diagonal, that violates the triangle
inequality: `d 0 1 = 10` but `d 0 3 + d 3 1 = 3`. -/
def badDist (x y : ℕ) : ℤ :=
  if x = y then 0
  else match min x y, max x y with
    | 0, 3 => 1
    | 1, 3 => 2
    | 0, 1 => 10
    | _, _ => 20

/-- **C16 (triangle inequality).** For a function that is symmetric and zero
exactly on the diagonal, but violates the triangle inequality, `ball_search`
misses a point inside the ball, for both kinds of tree. -/
theorem C16_triangle_needed (ρ : ℕ → ℕ) :
    (∀ x y, badDist x y = badDist y x) ∧ (∀ x y, badDist x y = 0 ↔ x = y) ∧
    badDist 3 1 ≤ 5 ∧
    (∃ t, VPTree.build [0, 1, 2] badDist "flat" ⟨1, 0, "disabled"⟩ ρ = .ok t ∧
      t.ballSearch 3 5 true = .ok [0]) ∧
    (∃ t, VPTree.build [0, 1, 2] badDist "hierarchical" ⟨1, 0, "disabled"⟩ ρ = .ok t ∧
      t.ballSearch 3 5 true = .ok [0]) := by
  refine ⟨?_, ?_, by decide, ⟨_, rfl, rfl⟩, ⟨_, rfl, rfl⟩⟩
  · intro x y
    unfold badDist
    rw [min_comm, max_comm]
    simp only [eq_comm]
  · intro x y
    unfold badDist
    split
    · simp_all
    · split <;> simp_all

/-- **C62 (violation).** `leaf_capacity` is documented as the maximum number of
points in a leaf, but a flat tree with capacity 1 over two distinct points is one
leaf holding both. -/
theorem C62_leaf_capacity_violation (ρ : ℕ → ℕ) :
    ∃ a, VPTree.build [0, 1] absDist "flat" ⟨1, 0, "disabled"⟩ ρ = .ok (.flat absDist a) ∧
      flagAt a 0 true ∧ storedIn a 0 2 = [0, 1] :=
  ⟨_, rfl, ⟨_, rfl, rfl⟩, rfl⟩

/-- **C62 (part that holds, flat).** A leaf of a flat tree holds at most twice the
capacity, unless its stored radius is at most the leaf radius. Missing: the
documented bound, see `C62_leaf_capacity_violation`. -/
theorem C62_flat_leaf_size_partial (d : T → T → R) (X : List T) (hX : X ≠ [])
    (p : VPParams R) (hp : 1 ≤ p.leafCapacity) (ρ : ℕ → ℕ) :
    ∃ a, VPTree.build X d "flat" p ρ = .ok (.flat d a) ∧
      ∀ s e, FlatRange a s e → flagAt a s true →
        e - s ≤ 2 * p.leafCapacity ∨ ∃ r, a.distances[s]? = some r ∧ r ≤ p.leafRadius := by
  obtain ⟨a, e1, wf, hdata, ht⟩ := flatBuild_ok d ρ p hp X
  refine ⟨a, by simp [VPTree.build, e1], ?_⟩
  intro s e hr hf
  have t := FlatRange.tree (by rw [hdata]; exact ht hX) hr
  rw [flagAt_iff] at hf
  cases t with
  | leaf _ _ _ _ hc =>
    exact hc.imp_right fun ⟨r, h1, h2⟩ => ⟨r, h1, not_lt.mp h2⟩
  | node _ _ _ _ ht => rw [ht] at hf; cases hf

/-- **C62 (part that holds, hierarchical).** A leaf of a hierarchical tree holds at
most `leaf_capacity` entries, or hangs below a node of radius at most the leaf
radius. -/
theorem C62_hier_leaf_size_partial (d : T → T → R) (X : List T)
    (p : VPParams R) (hp : 1 ≤ p.leafCapacity) (ρ : ℕ → ℕ) :
    ∃ t a, VPTree.build X d "hierarchical" p ρ = .ok (.hier d t a) ∧
      (∀ s e, t = .leaf s e → e - s ≤ p.leafCapacity) ∧
      ∀ r v near far, SubTree t (.node r v near far) → ∀ s e, near = .leaf s e ∨ far = .leaf s e →
        e - s ≤ p.leafCapacity ∨ ∃ r' v' n' f', SubTree t (.node r' v' n' f') ∧
          SubTree (.node r' v' n' f') (.leaf s e) ∧ r' ≤ p.leafRadius := by
  obtain ⟨t, a, e1, wf, hdata, hw, hperm, hcap, hgood⟩ := hierBuild_ok d ρ p hp X
  refine ⟨t, a, by simp [VPTree.build, e1], ?_, ?_⟩
  · rintro s e rfl
    exact hcap
  · intro r v near far hs s e hle
    have hsub : SubTree t (.leaf s e) := by
      rcases hle with rfl | rfl
      · exact hs.near
      · exact hs.far
    clear hle hs
    have key : ∀ t', SubTree t t' → (t'.Cap p ∨ ∃ r' v' n' f', SubTree t (.node r' v' n' f') ∧
        SubTree (.node r' v' n' f') t' ∧ r' ≤ p.leafRadius) := by
      intro t' ht'
      induction ht' with
      | refl => exact .inl hcap
      | @near r0 v0 l0 h0 hs0 ih =>
        rcases ih with (h | h) | ⟨r', v', n', f', h1, h2, h3⟩
        · exact .inr ⟨_, _, _, _, hs0, (SubTree.refl _).near, h⟩
        · exact .inl h.1
        · exact .inr ⟨_, _, _, _, h1, h2.near, h3⟩
      | @far r0 v0 l0 h0 hs0 ih =>
        rcases ih with (h | h) | ⟨r', v', n', f', h1, h2, h3⟩
        · exact .inr ⟨_, _, _, _, hs0, (SubTree.refl _).far, h⟩
        · exact .inl h.2
        · exact .inr ⟨_, _, _, _, h1, h2.far, h3⟩
    exact key _ hsub

/-- Non-vacuity: a flat tree of capacity 1 with a leaf of two entries and one of
radius zero with three. -/
example : ∃ a, VPTree.build [7, 7, 7] absDist "flat" ⟨1, 0, "disabled"⟩ (fun n => n) =
    .ok (.flat absDist a) ∧ flagAt a 0 true ∧ a.distances[0]? = some 0 :=
  ⟨_, rfl, ⟨_, rfl, rfl⟩, rfl⟩

end Verif

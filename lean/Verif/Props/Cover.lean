import Verif.Proof.CubicalApply
import Mathlib.Algebra.Order.Ring.Rat
import Mathlib.Data.Rat.Floor
import Mathlib.Tactic.FinCases

/-!
# C17–C25, C27, C28: covers

`ListsExactly`, `WellFormedCharts`, `Covers`, `NearestIndices` and the grid
notions are in `Verif.Spec.Cover`; admissible parameters are in
`Verif.Spec.CoverParams`.
-/

set_option autoImplicit false

namespace Verif

section ball
variable {T R : Type} [AddCommGroup R] [LinearOrder R] [IsOrderedAddMonoid R]

/-- **C17.** After `BallCover.fit` on non-empty data, `search(x)` returns,
without repetition, exactly the indices of the points strictly closer to `x`
than `radius`. -/
theorem C17_ball_search (c : BallCover T R) (H : BallOK c.params) (ρ : ℕ → ℕ) (X : List T)
    (hX : X ≠ []) :
    ∃ c', c.fit ρ X = .ok c' ∧ ∀ x, ∃ out, c'.search x = .ok out ∧
      ListsExactly X (fun z => c.params.metric x z < c.params.radius) out := by
  obtain ⟨c', h1, h2⟩ := ballFit_ok c H.metric H.kind H.capacity ρ X
  exact ⟨c', h1, h2 hX⟩

/-- Integers with their usual distance. -/
def demoBall (r : ℤ) : BallCover ℤ ℤ := ⟨⟨r, absDist, "flat", 1, none, "disabled"⟩, none⟩

theorem demoBall_ok (r : ℤ) : BallOK (demoBall r).params :=
  ⟨absDist_pseudo, Or.inl rfl, le_refl _⟩

example : ∃ c', (demoBall 2).fit (fun _ => 0) [5, 1, 3, 3, 9] = .ok c' ∧
    ∃ out, c'.search 4 = .ok out ∧ ∀ j, j ∈ out ↔ j = 0 ∨ j = 2 ∨ j = 3 := by
  obtain ⟨c', h1, h2⟩ := C17_ball_search (demoBall 2) (demoBall_ok 2) (fun _ => 0)
    [5, 1, 3, 3, 9] (by simp)
  obtain ⟨out, h3, h4⟩ := h2 4
  refine ⟨c', h1, out, h3, fun j => ?_⟩
  rw [h4.2]
  rcases j with _ | _ | _ | _ | _ | j <;> simp [demoBall, absDist]

/-- **C18.** For a positive radius, `BallCover.apply(X)` yields the open balls
around some dataset points (the centres, one per chart, in ascending order of
index): well-formed charts that cover every index, with centres pairwise at
distance at least `radius`. Empty data yield no charts. -/
theorem C18_ball_cover (c : BallCover T R) (H : BallOK c.params) (hr : 0 < c.params.radius)
    (ρ : ℕ → ℕ) (X : List T) :
    ∃ (out : List (List ℕ)) (centres : List ℕ), c.apply ρ X = .ok out ∧
      WellFormedCharts X.length out ∧ Covers X.length out ∧
      centres.Pairwise (· < ·) ∧
      List.Forall₂ (fun i chart => ∃ xi, X[i]? = some xi ∧
        ListsExactly X (fun z => c.params.metric xi z < c.params.radius) chart) centres out ∧
      ∀ i ∈ centres, ∀ j ∈ centres, i ≠ j → ∀ xi xj, X[i]? = some xi → X[j]? = some xj →
        c.params.radius ≤ c.params.metric xi xj := by
  obtain ⟨c', h1, h2⟩ := ballFit_ok c H.metric H.kind H.capacity ρ X
  cases X with
  | nil =>
    refine ⟨[], [], ?_, by simp [WellFormedCharts], by simp [Covers], List.Pairwise.nil,
      List.Forall₂.nil, by simp⟩
    simp [BallCover.apply, proximityNet, h1, proximityLoop]
  | cons x₀ xs =>
    obtain ⟨X, hXe⟩ : ∃ X, X = x₀ :: xs := ⟨_, rfl⟩
    rw [← hXe] at h1 h2 ⊢
    have h2 := h2 (by rw [hXe]; simp)
    choose f hf hl using h2
    let pt : ℕ → T := fun i => (X[i]?).getD x₀
    have hpt : ∀ (i : ℕ) x, X[i]? = some x → pt i = x := by
      intro i x hx; simp only [pt, hx, Option.getD_some]
    have hpt' : ∀ i, i < X.length → X[i]? = some (pt i) := by
      intro i hi; simp [pt, List.getElem?_eq_getElem hi]
    have hs : ∀ i, i < X.length → i ∈ f (pt i) := by
      intro i hi
      rw [(hl _).2]
      exact ⟨pt i, hpt' i hi, by simpa only [H.metric.self] using hr⟩
    have hrr : ∀ (i : ℕ) x, X[i]? = some x → c'.search x = .ok (f (pt i)) := by
      intro i x hx; rw [hpt i x hx]; exact hf x
    obtain ⟨out, cs, e, hsort, hm, ho⟩ := C29_proximity_net (c.fit ρ) BallCover.search X c' h1
      (fun i => f (pt i)) hrr
    obtain ⟨out', e', hcov, _⟩ := C29_proximity_net_covers (c.fit ρ) BallCover.search X c' h1
      (fun i => f (pt i)) hrr hs
    rw [e] at e'; cases e'
    have hlt : ∀ i ∈ cs, i < X.length := fun i hi => ((hm i).mp hi).1
    have ho' : out = cs.map (fun i => f (pt i)) := by
      rw [ho, List.filter_eq_self]
      intro l hl'
      obtain ⟨i, hi, rfl⟩ := List.mem_map.mp hl'
      have := hs i (hlt i hi)
      simp only [decide_eq_true_eq]
      intro h; rw [h] at this; simp at this
    have hsep : ∀ i ∈ cs, ∀ j ∈ cs, j < i → c.params.radius ≤ c.params.metric (pt j) (pt i) := by
      intro i hi j hj hji
      have := ((hm i).mp hi).2 j hj hji
      by_contra hlt'
      apply this
      rw [(hl _).2]
      exact ⟨pt i, hpt' i (hlt i hi), not_le.mp hlt'⟩
    refine ⟨out, cs, e, ?_, hcov, hsort, ?_, ?_⟩
    · intro chart hchart
      rw [ho'] at hchart
      obtain ⟨i, hi, rfl⟩ := List.mem_map.mp hchart
      refine ⟨?_, (hl _).1, ?_⟩
      · intro h
        have := hs i (hlt i hi)
        rw [h] at this; simp at this
      · intro j hj
        obtain ⟨z, hz, _⟩ := ((hl _).2 j).mp hj
        exact (List.getElem?_eq_some_iff.mp hz).1
    · rw [ho', List.forall₂_map_right_iff, List.forall₂_same]
      intro i hi
      exact ⟨pt i, hpt' i (hlt i hi), hl _⟩
    · intro i hi j hj hij xi xj hxi hxj
      rw [← hpt i xi hxi, ← hpt j xj hxj]
      rcases Nat.lt_or_gt_of_ne hij with h | h
      · exact hsep j hj i hi h
      · rw [H.metric.symm]; exact hsep i hi j hj h

example : (demoBall 2).apply (fun _ => 0) [5, 1, 3, 4, 9] = .ok [[0, 3], [1], [3, 2], [4]] := by rfl

example : ∃ (out : List (List ℕ)) (centres : List ℕ), (demoBall 2).apply (fun _ => 0) [5, 1, 3, 4, 9] = .ok out ∧
    WellFormedCharts 5 out ∧ Covers 5 out ∧ centres.length = out.length := by
  obtain ⟨out, cs, h1, h2, h3, _, h4, _⟩ := C18_ball_cover (demoBall 2) (demoBall_ok 2)
    (by decide) (fun _ => 0) [5, 1, 3, 4, 9]
  exact ⟨out, cs, h1, h2, h3, h4.length_eq⟩

/-- **C19.** After `KNNCover.fit` on non-empty data, `search(x)` returns
`min(neighbors, n)` distinct valid indices, and no index left out is strictly
closer to `x` than one returned. -/
theorem C19_knn_search (c : KnnCover T R) (H : KnnOK c.params) (ρ : ℕ → ℕ) (X : List T)
    (hX : X ≠ []) :
    ∃ c', c.fit ρ X = .ok c' ∧ ∀ x, ∃ out, c'.search x = .ok out ∧
      NearestIndices c.params.metric x c.params.neighbors X out := by
  obtain ⟨c', h1, h2⟩ := knnFit_ok c H.metric H.kind H.neighbors ρ X
  exact ⟨c', h1, h2 hX⟩

/-- Integers with their usual distance. -/
def demoKnn (k : ℕ) : KnnCover ℤ ℤ := ⟨⟨k, absDist, "flat", none, 0, "disabled"⟩, none⟩

theorem demoKnn_ok (k : ℕ) (hk : 1 ≤ k) : KnnOK (demoKnn k).params :=
  ⟨absDist_pseudo, Or.inl rfl, hk⟩

example : ∃ c', (demoKnn 2).fit (fun _ => 0) [5, 1, 3, 9] = .ok c' ∧
    ∃ out, c'.search 4 = .ok out ∧ out.length = 2 ∧ out.Nodup := by
  obtain ⟨c', h1, h2⟩ := C19_knn_search (demoKnn 2) (demoKnn_ok 2 (by decide)) (fun _ => 0)
    [5, 1, 3, 9] (by simp)
  obtain ⟨out, h3, h4⟩ := h2 4
  exact ⟨c', h1, out, h3, h4.2.1, h4.1⟩

/-- **C20 (violation).** `KNNCover.apply` does not cover every point: with
`neighbors = 1` and two equal points, one of them is in no chart. -/
theorem C20_knn_duplicates_violation :
    ∃ out, (demoKnn 1).apply (fun _ => 0) [7, 7] = .ok out ∧ ¬ Covers 2 out :=
  ⟨[[0], [0]], rfl, fun h => by simpa using h 1 (by decide)⟩

/-- **C20 (part that holds).** If at most `neighbors` points are at distance zero
from each point, `KNNCover.apply` yields well-formed charts that cover every
index. Missing: datasets with more than `neighbors` coinciding points, see
`C20_knn_duplicates_violation`. -/
theorem C20_knn_cover_partial (c : KnnCover T R) (H : KnnOK c.params) (ρ : ℕ → ℕ) (X : List T)
    (hdup : ∀ x ∈ X, X.countP (fun z => decide (c.params.metric x z = 0)) ≤ c.params.neighbors) :
    ∃ out : List (List ℕ), c.apply ρ X = .ok out ∧ WellFormedCharts X.length out ∧
      Covers X.length out ∧
      ∀ chart ∈ out, ∃ x ∈ X, NearestIndices c.params.metric x c.params.neighbors X chart := by
  obtain ⟨c', h1, h2⟩ := knnFit_ok c H.metric H.kind H.neighbors ρ X
  cases X with
  | nil =>
    refine ⟨[], ?_, by simp [WellFormedCharts], by simp [Covers], by simp⟩
    simp [KnnCover.apply, proximityNet, h1, proximityLoop]
  | cons x₀ xs =>
    obtain ⟨X, hXe⟩ : ∃ X, X = x₀ :: xs := ⟨_, rfl⟩
    rw [← hXe] at h1 h2 hdup ⊢
    have h2 := h2 (by rw [hXe]; simp)
    choose f hf hl using h2
    let pt : ℕ → T := fun i => (X[i]?).getD x₀
    have hpt : ∀ (i : ℕ) x, X[i]? = some x → pt i = x := by
      intro i x hx; simp only [pt, hx, Option.getD_some]
    have hpt' : ∀ i, i < X.length → X[i]? = some (pt i) := by
      intro i hi; simp [pt, List.getElem?_eq_getElem hi]
    have hs : ∀ i, i < X.length → i ∈ f (pt i) := by
      intro i hi
      by_contra hni
      obtain ⟨hnd, hlen, hval, hnear⟩ := hl (pt i)
      have hzero : ∀ j ∈ f (pt i), ∃ z, X[j]? = some z ∧ c.params.metric (pt i) z = 0 := by
        intro j hj
        refine ⟨pt j, hpt' j (hval j hj), ?_⟩
        have := hnear j hj i hni _ _ (hpt' j (hval j hj)) (hpt' i hi)
        rw [H.metric.self] at this
        exact le_antisymm this (H.metric.nonneg _ _)
      have hcount := length_le_countP X (fun z => c.params.metric (pt i) z = 0) (i :: f (pt i))
        (List.nodup_cons.mpr ⟨hni, hnd⟩) (by
          intro j hj
          rcases List.mem_cons.mp hj with rfl | hj
          · exact ⟨pt j, hpt' j hi, H.metric.self _⟩
          · exact hzero j hj)
      have h3 := hdup (pt i) (List.mem_of_getElem? (hpt' i hi))
      rw [List.length_cons] at hcount
      rcases le_total c.params.neighbors X.length with h | h
      · rw [min_eq_left h] at hlen; omega
      · rw [min_eq_right h] at hlen
        have := (List.subperm_of_subset (List.nodup_cons.mpr ⟨hni, hnd⟩)
          (l₂ := List.range X.length) (by
            intro j hj
            rcases List.mem_cons.mp hj with rfl | hj
            · exact List.mem_range.mpr hi
            · exact List.mem_range.mpr (hval j hj))).length_le
        simp at this
        omega
    have hrr : ∀ (i : ℕ) x, X[i]? = some x → c'.search x = .ok (f (pt i)) := by
      intro i x hx; rw [hpt i x hx]; exact hf x
    obtain ⟨out, e, hcov, hres, _⟩ := C29_proximity_net_covers (c.fit ρ) KnnCover.search X c' h1
      (fun i => f (pt i)) hrr hs
    refine ⟨out, e, ?_, hcov, ?_⟩
    · intro chart hchart
      obtain ⟨i, hi, rfl⟩ := hres chart hchart
      refine ⟨?_, (hl _).1, (hl _).2.2.1⟩
      intro h
      have := hs i hi
      rw [h] at this; simp at this
    · intro chart hchart
      obtain ⟨i, hi, rfl⟩ := hres chart hchart
      exact ⟨pt i, List.mem_of_getElem? (hpt' i hi), hl _⟩

/-- Non-vacuity: two equal points with `neighbors = 2`. -/
example : ∃ out : List (List ℕ), (demoKnn 2).apply (fun _ => 0) [7, 3, 7, 4] = .ok out ∧
    Covers 4 out := by
  obtain ⟨out, h1, _, h3, _⟩ := C20_knn_cover_partial (demoKnn 2) (demoKnn_ok 2 (by decide))
    (fun _ => 0) [7, 3, 7, 4] (by simp [demoKnn, absDist, List.countP_cons])
  exact ⟨out, h1, h3⟩

end ball

section cubical
variable {R : Type} [Field R] [LinearOrder R] [FloorRing R] [IsStrictOrderedRing R] {m : ℕ}

/-- **C21 (any query).** After `fit` on non-empty data whose coordinates range
over `[lo, hi]`, `search(x)` returns exactly the indices of the points lying, in
every coordinate, in the open interval around the grid cell of `x`. -/
theorem C21_search_boxes (dflt : ℕ → R) (c : CubCover m R) (p : R) (H : CubOK dflt m c.params p)
    (ρ : ℕ → ℕ) (X : List (Fin m → R)) (hX : X ≠ []) (lo hi : Fin m → R)
    (hb : IsBounds X lo hi) :
    ∃ c', c.fit dflt ρ X = .ok c' ∧ ∀ x : Fin m → R,
      (∃ cell : Fin m → ℤ,
        ∀ i, QueryCell (lo i) (gridHi lo hi c.params.nIntervals i) c.params.nIntervals (x i)
          (cell i)) ∧
      ∀ cell : Fin m → ℤ,
        (∀ i, QueryCell (lo i) (gridHi lo hi c.params.nIntervals i) c.params.nIntervals (x i)
          (cell i)) →
        ∃ out, c'.search x = .ok out ∧
          ListsExactly X (fun z => ∀ i, InBox (lo i) (gridHi lo hi c.params.nIntervals i)
            c.params.nIntervals p (cell i) (z i)) out := by
  obtain ⟨c', g, b, f, h1, _, hg, hf, hl, _, _⟩ := cubFitted dflt c ρ X hX p H
  obtain ⟨rfl, rfl⟩ := hg.bounds.unique hb
  refine ⟨c', h1, fun x => ⟨⟨g.offset x, fun i => (offset_iff hg H.intervals x i _).mpr rfl⟩,
    fun cell hcell => ⟨f x, hf x, ?_⟩⟩⟩
  have : cell = g.offset x := funext fun i => (offset_iff hg H.intervals x i _).mp (hcell i)
  rw [this]; exact hl x

/-- **C21 (dataset points).** For the points of the dataset the cells are those
of the range split in `n` equal cells, the last one closed, and coordinates on
which the dataset is constant impose no constraint. -/
theorem C21_search_hypercube (dflt : ℕ → R) (c : CubCover m R) (p : R)
    (H : CubOK dflt m c.params p) (ρ : ℕ → ℕ) (X : List (Fin m → R)) (hX : X ≠ [])
    (lo hi : Fin m → R) (hb : IsBounds X lo hi) :
    ∃ c', c.fit dflt ρ X = .ok c' ∧ ∀ x ∈ X,
      (∃ cell, IsCell lo hi c.params.nIntervals x cell) ∧
      ∀ cell, IsCell lo hi c.params.nIntervals x cell → ∃ out, c'.search x = .ok out ∧
        ListsExactly X (InHypercube lo hi c.params.nIntervals p cell) out := by
  obtain ⟨c', g, b, f, h1, _, hg, hf, _, hl, _⟩ := cubFitted dflt c ρ X hX p H
  obtain ⟨rfl, rfl⟩ := hg.bounds.unique hb
  refine ⟨c', h1, fun x hx => ⟨⟨g.offset x, (isCell_iff hg H.intervals x
    (fun i => (hg.bounds i).2.2 x hx) _).mpr rfl⟩, fun cell hcell => ⟨f x, hf x, ?_⟩⟩⟩
  rw [(isCell_iff hg H.intervals x (fun i => (hg.bounds i).2.2 x hx) _).mp hcell]
  exact hl x hx

end cubical

/-- Two intervals per dimension with overlap fraction 1/3, in dimension 2. -/
def demoCub : CubCover 2 ℚ := ⟨⟨2, some (1 / 3), "flat", 1, none, "disabled"⟩, none⟩

theorem demoCub_ok : CubOK (fun _ => 0) 2 demoCub.params (1 / 3) :=
  ⟨rfl, by norm_num, by norm_num, by decide, Or.inl rfl, le_refl _⟩

/-- The point of the plane with the given coordinates. -/
def pt2 (a b : ℚ) : Fin 2 → ℚ := fun i => if i = 0 then a else b

/-- Non-vacuity: data with one constant coordinate. The cells are `[0,2)`,
`[2,4]`, the first box is `(-1/2, 5/2)` in the first coordinate. -/
example : ∃ c', demoCub.fit (fun _ => 0) (fun _ => 0) [pt2 0 7, pt2 2 7, pt2 4 7, pt2 3 7] = .ok c' ∧
    ∃ out, c'.search (pt2 0 7) = .ok out ∧ ∀ j, j ∈ out ↔ j = 0 ∨ j = 1 := by
  have hb : IsBounds [pt2 0 7, pt2 2 7, pt2 4 7, pt2 3 7] (pt2 0 7) (pt2 4 7) := by
    intro i
    fin_cases i <;> (simp [pt2]; try norm_num)
  have hs0 : Spread (pt2 0 7) (pt2 4 7) 0 := by unfold Spread; simp [pt2]; norm_num
  have hs1 : ¬ Spread (pt2 0 7) (pt2 4 7) 1 := by unfold Spread; simp [pt2]
  obtain ⟨c', h1, h2⟩ := C21_search_hypercube (fun _ => 0) demoCub (1 / 3) demoCub_ok
    (fun _ => 0) _ (by simp) _ _ hb
  obtain ⟨out, h3, h4⟩ := (h2 (pt2 0 7) (by simp)).2 (fun _ => 0) (by
    intro i
    refine ⟨fun hs => ?_, fun _ => rfl⟩
    fin_cases i
    · simp [InCell, cellLeft, cellRight, pt2, demoCub]
    · exact absurd hs hs1)
  refine ⟨c', h1, out, h3, fun j => ?_⟩
  have hbox : ∀ a : ℚ, InHypercube (pt2 0 7) (pt2 4 7) 2 (1 / 3) (fun _ => 0) (pt2 a 7) ↔
      -1 / 2 < a ∧ a < 5 / 2 := by
    intro a
    constructor
    · intro h
      have := h 0 hs0
      simp only [InBox, cellLeft, cellRight, boxWidth, pt2] at this
      norm_num at this
      constructor <;> linarith [this.1, this.2]
    · rintro ⟨ha, hb'⟩ i hs
      fin_cases i
      · simp only [InBox, cellLeft, cellRight, boxWidth, pt2]
        norm_num
        constructor <;> linarith
      · exact absurd hs hs1
  rw [h4.2]
  simp only [one_div] at hbox ⊢
  rcases j with _ | _ | _ | _ | j <;> simp [demoCub] <;> rw [hbox] <;> norm_num

section cubical
variable {R : Type} [Field R] [LinearOrder R] [FloorRing R] [IsStrictOrderedRing R] {m : ℕ}

omit [FloorRing R] in
/-- The bounds of a non-empty dataset exist. -/
theorem exists_bounds (X : List (Fin m → R)) (hX : X ≠ []) : ∃ lo hi, IsBounds X lo hi := by
  obtain ⟨lo, hi, _, _, h, _⟩ := getBounds_ok 1 X hX
  exact ⟨lo, hi, h⟩

omit [Field R] [LinearOrder R] [FloorRing R] [IsStrictOrderedRing R] in
theorem wellFormed_of_forall₂ {X : List (Fin m → R)} {P : (Fin m → ℤ) → (Fin m → R) → Prop}
    {cells : List (Fin m → ℤ)} {out : List (List ℕ)}
    (h : List.Forall₂ (fun cell chart => ListsExactly X (P cell) chart ∧ chart ≠ []) cells out) :
    WellFormedCharts X.length out := by
  intro chart hc
  obtain ⟨k, hk⟩ := List.mem_iff_getElem?.mp hc
  have hk' := (List.getElem?_eq_some_iff.mp hk).1
  have hlen := h.length_eq
  have := h.get (i := k) (by omega) hk'
  rw [List.get_eq_getElem, List.get_eq_getElem, (List.getElem?_eq_some_iff.mp hk).2] at this
  refine ⟨this.2, this.1.1, fun i hi => ?_⟩
  obtain ⟨z, hz, _⟩ := (this.1.2 i).mp hi
  exact (List.getElem?_eq_some_iff.mp hz).1

/-- **C22.** The cubical covers yield well-formed charts that cover every index,
for every dataset, empty ones included. -/
theorem C22_cubical_cover (dflt : ℕ → R) (c : CubCover m R) (p : R) (H : CubOK dflt m c.params p)
    (ρ : ℕ → ℕ) (X : List (Fin m → R)) :
    (∃ out : List (List ℕ), c.applyStandard dflt ρ X = .ok out ∧
      WellFormedCharts X.length out ∧ Covers X.length out) ∧
    (∃ out : List (List ℕ), c.applyProximity dflt ρ X = .ok out ∧
      WellFormedCharts X.length out ∧ Covers X.length out) ∧
    ∀ alg, alg = "proximity" ∨ alg = "standard" →
      ∃ out : List (List ℕ),
        CubicalCover.apply dflt (⟨c.params, alg, none⟩ : CubicalCover m R) ρ X = .ok out ∧
        WellFormedCharts X.length out ∧ Covers X.length out := by
  have key : ∀ c : CubCover m R, CubOK dflt m c.params p →
      (∃ out : List (List ℕ), c.applyStandard dflt ρ X = .ok out ∧
        WellFormedCharts X.length out ∧ Covers X.length out) ∧
      (∃ out : List (List ℕ), c.applyProximity dflt ρ X = .ok out ∧
        WellFormedCharts X.length out ∧ Covers X.length out) := by
    intro c H
    by_cases hX : X = []
    · subst hX
      constructor
      · exact ⟨[], rfl, by simp [WellFormedCharts], by simp [Covers]⟩
      · exact ⟨[], rfl, by simp [WellFormedCharts], by simp [Covers]⟩
    · obtain ⟨lo, hi, hb⟩ := exists_bounds X hX
      constructor
      · obtain ⟨cells, out, e, _, _, h, hcov⟩ := applyStandard_ok dflt c ρ X hX p H hb
        exact ⟨out, e, wellFormed_of_forall₂ h, hcov⟩
      · obtain ⟨cells, out, e, _, _, h, hcov⟩ := applyProximity_ok dflt c ρ X hX p H hb
        exact ⟨out, e, wellFormed_of_forall₂ h, hcov⟩
  refine ⟨(key c H).1, (key c H).2, ?_⟩
  rintro alg (rfl | rfl)
  · exact (key ⟨c.params, none⟩ H).2
  · exact (key ⟨c.params, none⟩ H).1

/-- Non-vacuity: in dimension 2 over the rationals. -/
example : ∃ out : List (List ℕ),
    demoCub.applyStandard (fun _ => 0) (fun _ => 0) [pt2 0 7, pt2 2 7, pt2 4 8] = .ok out ∧
      Covers 3 out := by
  obtain ⟨⟨out, h1, _, h2⟩, _⟩ := C22_cubical_cover (fun _ => 0) demoCub (1 / 3) demoCub_ok
    (fun _ => 0) [pt2 0 7, pt2 2 7, pt2 4 8]
  exact ⟨out, h1, h2⟩

omit [FloorRing R] in
/-- **C23.** The intervals of a dimension all have the width `boxWidth`; those of
adjacent cells overlap in an interval whose length is the fraction `p` of it; and
for `p ≤ 1/2` the intervals of non-adjacent cells are disjoint. -/
theorem C23_overlap (lo hi : R) (hlt : lo < hi) (n : ℕ) (hn : 1 ≤ n) (p : R) (hp0 : 0 < p)
    (hp1 : p < 1) :
    0 < boxWidth lo hi n p ∧
    (∀ c : ℤ, ∃ a b, (∀ z, InBox lo hi n p c z ↔ a < z ∧ z < b) ∧ b - a = boxWidth lo hi n p) ∧
    (∀ c : ℤ, ∃ a b, (∀ z, InBox lo hi n p c z ∧ InBox lo hi n p (c + 1) z ↔ a < z ∧ z < b) ∧
      b - a = p * boxWidth lo hi n p) ∧
    (p ≤ 1 / 2 → ∀ c c' : ℤ, c + 2 ≤ c' → ∀ z, ¬ (InBox lo hi n p c z ∧ InBox lo hi n p c' z)) := by
  have hn' : (0 : R) < n := by exact_mod_cast hn
  have hd : 0 < hi - lo := sub_pos.mpr hlt
  have hq : 0 < 1 - p := sub_pos.mpr hp1
  obtain ⟨u, hu⟩ : ∃ u, u = (hi - lo) / n := ⟨_, rfl⟩
  have hu0 : 0 < u := by rw [hu]; positivity
  obtain ⟨w, hw⟩ : ∃ w, w = boxWidth lo hi n p := ⟨_, rfl⟩
  have hwu : u = w * (1 - p) := by
    rw [hw, boxWidth, ← hu]; field_simp
  have hw0 : 0 < w := by rw [hw, boxWidth, ← hu]; positivity
  have hpw : 0 < p * w := mul_pos hp0 hw0
  have hpw1 : p * w < w := by nlinarith
  unfold InBox cellLeft cellRight
  rw [← hw, ← hu]
  refine ⟨hw0, ?_, ?_, ?_⟩
  · intro c
    refine ⟨_, _, fun z => Iff.rfl, ?_⟩
    rw [hwu]; ring
  · intro c
    refine ⟨lo + ((c : R) + 1) * u - p * w / 2, lo + ((c : R) + 1) * u + p * w / 2,
      fun z => ?_, by ring⟩
    push_cast
    constructor
    · rintro ⟨⟨_, h2⟩, h3, _⟩; exact ⟨h3, h2⟩
    · rintro ⟨h1, h2⟩
      refine ⟨⟨by linarith [add_mul (c : R) 1 u], h2⟩, h1, ?_⟩
      have : ((c : R) + 1 + 1) * u = ((c : R) + 1) * u + u := by ring
      linarith
  · intro hp2 c c' hcc z
    rintro ⟨⟨_, h2⟩, h3, _⟩
    have hc : (c : R) + 2 ≤ c' := by exact_mod_cast hcc
    have h4 : ((c : R) + 2) * u ≤ c' * u := mul_le_mul_of_nonneg_right hc hu0.le
    have h5 : ((c : R) + 2) * u = ((c : R) + 1) * u + u := by ring
    have h6 : p * w ≤ u := by rw [hwu]; nlinarith
    linarith

/-- Non-vacuity: three cells of `[0, 3]` with `p = 1/2`. -/
example : 0 < boxWidth (0 : ℚ) 3 3 (1 / 2) ∧
    ∀ z : ℚ, ¬ (InBox 0 3 3 (1 / 2) 0 z ∧ InBox 0 3 3 (1 / 2) 2 z) := by
  obtain ⟨h1, _, _, h4⟩ := C23_overlap (0 : ℚ) 3 (by norm_num) 3 (by decide) (1 / 2)
    (by norm_num) (by norm_num)
  exact ⟨h1, h4 le_rfl 0 2 (by decide)⟩

/-- **C24 (part that holds).** `StandardCubicalCover.apply` yields exactly one
chart for each grid cell containing a dataset point: the hypercube of the cell.
Missing: hypercubes that meet the dataset only outside their cell, see
`C24_missing_hypercube_violation`. -/
theorem C24_standard_cells_partial (dflt : ℕ → R) (c : CubCover m R) (p : R)
    (H : CubOK dflt m c.params p) (ρ : ℕ → ℕ) (X : List (Fin m → R)) (hX : X ≠ [])
    (lo hi : Fin m → R) (hb : IsBounds X lo hi) :
    ∃ (cells : List (Fin m → ℤ)) (out : List (List ℕ)),
      c.applyStandard dflt ρ X = .ok out ∧ cells.Nodup ∧
      (∀ cell, cell ∈ cells ↔ ∃ x ∈ X, IsCell lo hi c.params.nIntervals x cell) ∧
      List.Forall₂ (fun cell chart =>
        ListsExactly X (InHypercube lo hi c.params.nIntervals p cell) chart) cells out := by
  obtain ⟨cells, out, e, h1, h2, h3, _⟩ := applyStandard_ok dflt c ρ X hX p H hb
  exact ⟨cells, out, e, h1, h2, h3.imp fun _ _ h => h.1⟩

/-- **C25.** Every chart of the proximity cubical cover is, up to order, a chart
of the standard one with the same parameters; the charts belong to distinct
cells, so there are at most as many. -/
theorem C25_proximity_among_standard (dflt : ℕ → R) (c : CubCover m R) (p : R)
    (H : CubOK dflt m c.params p) (ρ ρ' : ℕ → ℕ) (X : List (Fin m → R)) (hX : X ≠ [])
    (lo hi : Fin m → R) (hb : IsBounds X lo hi) :
    ∃ outP outS : List (List ℕ), c.applyProximity dflt ρ X = .ok outP ∧
      c.applyStandard dflt ρ' X = .ok outS ∧
      (∀ chart ∈ outP, ∃ chart' ∈ outS, chart.Perm chart') ∧
      outP.length ≤ outS.length ∧
      ∃ cells : List (Fin m → ℤ), cells.Nodup ∧
        List.Forall₂ (fun cell chart =>
          ListsExactly X (InHypercube lo hi c.params.nIntervals p cell) chart) cells outP := by
  obtain ⟨cellsP, outP, eP, hndP, hmP, h3P, _⟩ := applyProximity_ok dflt c ρ X hX p H hb
  obtain ⟨cellsS, outS, eS, hndS, hmS, h3S, _⟩ := applyStandard_ok dflt c ρ' X hX p H hb
  have hsub : ∀ cell ∈ cellsP, cell ∈ cellsS := fun cell h => (hmS cell).mpr (hmP cell h)
  refine ⟨outP, outS, eP, eS, ?_, ?_, cellsP, hndP, h3P.imp fun _ _ h => h.1⟩
  · intro chart hc
    obtain ⟨k, hk⟩ := List.mem_iff_getElem.mp hc
    obtain ⟨hk, rfl⟩ := hk
    have hlen := h3P.length_eq
    have h1 := h3P.get (i := k) (by omega) hk
    rw [List.get_eq_getElem, List.get_eq_getElem] at h1
    obtain ⟨k', hk', hc'⟩ := List.mem_iff_getElem.mp (hsub _ (List.getElem_mem (l := cellsP)
      (show k < cellsP.length by omega)))
    have hlen' := h3S.length_eq
    have h2 := h3S.get (i := k') hk' (by omega)
    rw [List.get_eq_getElem, List.get_eq_getElem, hc'] at h2
    exact ⟨outS[k'], List.getElem_mem _, h1.1.perm h2.1⟩
  · rw [← h3P.length_eq, ← h3S.length_eq]
    exact (List.subperm_of_subset hndP hsub).length_le

/-- Non-vacuity of C24 and C25: three points in the plane. -/
example : ∃ lo hi, IsBounds [pt2 0 7, pt2 2 7, pt2 4 8] lo hi ∧
    ∃ (cells : List (Fin 2 → ℤ)) (out : List (List ℕ)),
      demoCub.applyStandard (fun _ => 0) (fun _ => 0) [pt2 0 7, pt2 2 7, pt2 4 8] = .ok out ∧
      List.Forall₂ (fun cell chart => ListsExactly [pt2 0 7, pt2 2 7, pt2 4 8]
        (InHypercube lo hi 2 (1 / 3) cell) chart) cells out := by
  obtain ⟨lo, hi, hb⟩ := exists_bounds [pt2 0 7, pt2 2 7, pt2 4 8] (by simp)
  obtain ⟨cells, out, h1, _, _, h2⟩ := C24_standard_cells_partial (fun _ => 0) demoCub (1 / 3)
    demoCub_ok (fun _ => 0) _ (by simp) lo hi hb
  exact ⟨lo, hi, hb, cells, out, h1, h2⟩

/-- Three intervals in dimension 1 with overlap fraction 1/2. -/
def demoCub1 : CubCover 1 ℚ := ⟨⟨3, some (1 / 2), "flat", 1, none, "disabled"⟩, none⟩

/-- **C24 (violation).** On the dataset `0, 0.9, 3` with three intervals and
overlap fraction 1/2, the hypercube `(0.5, 2.5)` of the middle cell contains the
point `0.9`, but no chart of `StandardCubicalCover.apply` is that hypercube: only
hypercubes whose own grid cell contains a point are yielded. -/
theorem C24_missing_hypercube_violation :
    ∃ (X : List (Fin 1 → ℚ)) (lo hi : Fin 1 → ℚ) (out : List (List ℕ)),
      CubOK (fun _ => 0) 1 demoCub1.params (1 / 2) ∧ IsBounds X lo hi ∧
      demoCub1.applyStandard (fun _ => 0) (fun _ => 0) X = .ok out ∧
      ∃ cell : Fin 1 → ℤ, (∀ i, 0 ≤ cell i ∧ cell i < 3) ∧
        (∃ x ∈ X, InHypercube lo hi 3 (1 / 2) cell x) ∧
        ∀ chart ∈ out, ¬ ListsExactly X (InHypercube lo hi 3 (1 / 2) cell) chart := by
  refine ⟨[fun _ => 0, fun _ => 9 / 10, fun _ => 3], fun _ => 0, fun _ => 3, [[2], [0, 1]],
    ⟨rfl, by norm_num, by norm_num, by decide, Or.inl rfl, le_refl _⟩, ?_, by decide +kernel,
    fun _ => 1, fun _ => ⟨by norm_num, by norm_num⟩, ?_, ?_⟩
  · intro i
    simp
    norm_num
  · refine ⟨fun _ => 9 / 10, by simp, fun i _ => ?_⟩
    simp only [InBox, cellLeft, cellRight, boxWidth]
    norm_num
  · have hin : InHypercube (fun _ => 0) (fun _ => 3) 3 (1 / 2) (fun _ : Fin 1 => 1)
        (fun _ => (9 / 10 : ℚ)) := by
      intro i _
      simp only [InBox, cellLeft, cellRight, boxWidth]
      norm_num
    have hout : ¬ InHypercube (fun _ => 0) (fun _ => 3) 3 (1 / 2) (fun _ : Fin 1 => 1)
        (fun _ => (0 : ℚ)) := by
      intro h
      have := h 0 (by simp only [Spread]; norm_num)
      simp only [InBox, cellLeft, cellRight, boxWidth] at this
      norm_num at this
    intro chart hc h
    simp only [List.mem_cons, List.not_mem_nil, or_false] at hc
    rcases hc with rfl | rfl
    · have := (h.2 1).mpr ⟨_, rfl, hin⟩
      simp at this
    · obtain ⟨z, hz, hz'⟩ := (h.2 0).mp (by simp)
      simp only [List.getElem?_cons_zero, Option.some.injEq] at hz
      rw [← hz] at hz'
      exact hout hz'

/-- **C27 (errors).** On non-empty data, with a known kind of tree and a positive
leaf capacity, `fit` raises `ValueError` exactly when the overlap fraction is not
positive, `ZeroDivisionError` exactly when it is 1, succeeds otherwise, and then
has warned exactly when it is larger than 1/2. -/
theorem C27_validation (dflt : ℕ → R) (c : CubCover m R) (ρ : ℕ → ℕ) (X : List (Fin m → R))
    (hX : X ≠ []) (p : R) (hov : c.params.overlapFrac.getD (dflt m) = p)
    (hk : IsKind c.params.kind) (hc : 1 ≤ c.params.leafCapacity) :
    (p ≤ 0 ↔ c.fit dflt ρ X = .error .valueError) ∧
    (p = 1 ↔ c.fit dflt ρ X = .error .zeroDivisionError) ∧
    (0 < p ∧ p ≠ 1 ↔ ∃ c' f, c.fit dflt ρ X = .ok c' ∧ c'.fitted = some f ∧
      (f.warned = true ↔ 1 / 2 < p)) := by
  have hlen : X.length ≠ 0 := by simpa using hX
  rcases le_or_gt p 0 with h0 | h0
  · have e : c.fit dflt ρ X = .error .valueError := by
      unfold CubCover.fit
      simp only [hlen, if_false, hov, h0, if_true]
    have h1 : p ≠ 1 := fun h => by rw [h] at h0; exact absurd h0 (not_le.mpr one_pos)
    rw [e]
    simp [h0, h1, not_lt.mpr h0]
  · by_cases h1 : p = 1
    · have e : c.fit dflt ρ X = .error .zeroDivisionError := by
        obtain ⟨lo, hi, delta, hb, _⟩ := getBounds_ok c.params.nIntervals X hX
        have hr : boxRadius p = .error .zeroDivisionError := by
          unfold boxRadius; rw [if_pos]; rw [h1]; ring
        unfold CubCover.fit
        simp only [hlen, if_false, hov, not_le.mpr h0, hb, ok_bind, hr]
        rfl
      rw [e]
      simp [h1, not_le.mpr (one_pos (α := R))]
    · obtain ⟨g, b, e, _⟩ := cubFit_ok dflt c ρ X hX p hov h0 h1 hk hc
      rw [e]
      simp [h0, h1, not_le.mpr h0]

/-- Non-vacuity: the three cases occur. -/
example : ∀ v : ℚ, (v ≤ 0 ↔ CubCover.fit (fun _ => 0)
    (⟨⟨2, some v, "flat", 1, none, "disabled"⟩, none⟩ : CubCover 2 ℚ) (fun _ => 0) [pt2 0 1] =
      .error .valueError) := fun v =>
  (C27_validation (fun _ => 0) ⟨⟨2, some v, "flat", 1, none, "disabled"⟩, none⟩ (fun _ => 0)
    [pt2 0 1] (by simp) v rfl (Or.inl rfl) (le_refl _)).1

/-- **C27 (overlap fraction above 1).** `fit` accepts it, every search returns
nothing, and no chart is yielded: no point is covered. -/
theorem C27_overlap_above_one (dflt : ℕ → R) (c : CubCover m R) (ρ : ℕ → ℕ)
    (X : List (Fin m → R)) (hX : X ≠ []) (p : R)
    (hov : c.params.overlapFrac.getD (dflt m) = p) (hp : 1 < p)
    (hk : IsKind c.params.kind) (hc : 1 ≤ c.params.leafCapacity) :
    (∃ c', c.fit dflt ρ X = .ok c' ∧ ∀ x, c'.search x = .ok []) ∧
      c.applyStandard dflt ρ X = .ok [] ∧ c.applyProximity dflt ρ X = .ok [] := by
  obtain ⟨g, b, e, _, h⟩ := cubFit_ok dflt c ρ X hX p hov (one_pos.trans hp) hp.ne' hk hc
  obtain ⟨c', hc'⟩ : ∃ c' : CubCover m R, c' = ⟨c.params, some ⟨g, b, decide (1 / 2 < p)⟩⟩ :=
    ⟨_, rfl⟩
  rw [← hc'] at e
  have hs : ∀ x, c'.search x = .ok [] := by
    intro x
    obtain ⟨out, h1, h2⟩ := h (g.phi x)
    have : out = [] := by
      rw [List.eq_nil_iff_forall_not_mem]
      intro j hj
      obtain ⟨z, _, hz⟩ := (h2.2 j).mp hj
      rw [chebyshevDist_lt] at hz
      have h3 := hz.1
      rw [one_div, inv_pos] at h3
      linarith
    rw [hc']
    rw [this] at h1
    exact h1
  refine ⟨⟨c', e, hs⟩, ?_, ?_⟩
  · obtain ⟨lm, e1, _⟩ := landmarksLoop_ok c' ⟨g, b, decide (1 / 2 < p)⟩
      (by rw [hc']) X X PyDict.empty (fun _ h => h) (by simp [PyDict.keys, PyDict.empty])
      (by simp [PyDict.empty])
    have e2 := standardLoop_ok c' (fun _ => []) hs lm.items (lm.items.length + 1) (by omega)
    unfold CubCover.applyStandard
    simp only [e, ok_bind, e1]
    rw [show lm = ⟨lm.items⟩ from rfl, e2]
    congr 1
    rw [List.filter_eq_nil_iff]
    intro l hl
    obtain ⟨_, _, rfl⟩ := List.mem_map.mp hl
    simp
  · obtain ⟨out, cs, e3, _, _, ho⟩ := C29_proximity_net (c.fit dflt ρ) CubCover.search X c' e
      (fun _ => []) (fun i x _ => hs x)
    unfold CubCover.applyProximity
    rw [e3, ho]
    congr 1
    rw [List.filter_eq_nil_iff]
    intro l hl
    obtain ⟨_, _, rfl⟩ := List.mem_map.mp hl
    simp

example : CubCover.applyStandard (fun _ => 0)
    (⟨⟨2, some 2, "flat", 1, none, "disabled"⟩, none⟩ : CubCover 2 ℚ) (fun _ => 0)
      [pt2 0 1, pt2 3 4] = .ok [] :=
  (C27_overlap_above_one (fun _ => 0) ⟨⟨2, some 2, "flat", 1, none, "disabled"⟩, none⟩ (fun _ => 0)
    [pt2 0 1, pt2 3 4] (by simp) 2 rfl (by norm_num) (Or.inl rfl) (le_refl _)).2.1

omit [IsStrictOrderedRing R] in
/-- **C28.** `CubicalCover` gives the results of the delegate class with the same
parameters, whatever it did before; any algorithm name other than the two known
ones raises `ValueError`, on `fit` and on `apply`. -/
theorem C28_delegates (dflt : ℕ → R) (w : CubicalCover m R) (ρ : ℕ → ℕ) (X : List (Fin m → R)) :
    (w.algorithm = "proximity" →
      w.apply dflt ρ X = CubCover.applyProximity dflt ⟨w.params, none⟩ ρ X) ∧
    (w.algorithm = "standard" →
      w.apply dflt ρ X = CubCover.applyStandard dflt ⟨w.params, none⟩ ρ X) ∧
    (w.algorithm = "proximity" ∨ w.algorithm = "standard" →
      (∀ d, CubCover.fit dflt ⟨w.params, none⟩ ρ X = .ok d →
        ∃ w', w.fit dflt ρ X = .ok w' ∧ ∀ x, w'.search x = d.search x) ∧
      (∀ e, CubCover.fit dflt (⟨w.params, none⟩ : CubCover m R) ρ X = .error e →
        w.fit dflt ρ X = .error e)) ∧
    (w.algorithm ≠ "proximity" → w.algorithm ≠ "standard" →
      w.fit dflt ρ X = .error .valueError ∧ w.apply dflt ρ X = .error .valueError) := by
  refine ⟨?_, ?_, ?_, ?_⟩
  · intro h; simp [CubicalCover.apply, CubicalCover.getDelegate, h]
  · intro h; simp [CubicalCover.apply, CubicalCover.getDelegate, h]
  · rintro (h | h)
    · refine ⟨fun d hd => ⟨⟨w.params, w.algorithm, some (.proximity, d)⟩, ?_, fun x => rfl⟩,
        fun e he => ?_⟩
      · simp [CubicalCover.fit, CubicalCover.getDelegate, h, hd]
      · simp [CubicalCover.fit, CubicalCover.getDelegate, h, he]
    · refine ⟨fun d hd => ⟨⟨w.params, w.algorithm, some (.standard, d)⟩, ?_, fun x => rfl⟩,
        fun e he => ?_⟩
      · simp [CubicalCover.fit, CubicalCover.getDelegate, h, hd]
      · simp [CubicalCover.fit, CubicalCover.getDelegate, h, he]
  · intro h1 h2
    constructor
    · simp only [CubicalCover.fit, CubicalCover.getDelegate, h1, h2, if_false]; rfl
    · simp only [CubicalCover.apply, CubicalCover.getDelegate, h1, h2, if_false]; rfl

example : CubicalCover.fit (fun _ => 0)
    (⟨⟨2, some 2, "flat", 1, none, "disabled"⟩, "ball", none⟩ : CubicalCover 2 ℚ) (fun _ => 0)
      [pt2 0 1] = .error .valueError :=
  ((C28_delegates (fun _ => 0) _ (fun _ => 0) [pt2 0 1]).2.2.2 (by decide) (by decide)).1

end cubical

end Verif

import Verif.Proof.Columns
import Verif.Proof.Metrics
import Verif.Props.Units
import Verif.Props.Overlap

/-!
# C93: the order of the columns, repeated columns and constant columns of the lens
-/

set_option autoImplicit false
set_option linter.unusedSectionVars false

namespace Verif

variable {S T T' : Type}

/-- **C93 (graph).** If two covers, each given its own lens, of whatever kind, give the same
charts in the same order, the Mapper graphs are the same up to the numbers of the nodes, with the
same `size` and `ids`, and the connected components are the same. -/
theorem C93_graph (X : List S) (y : List T) (y' : List T') (cover : CoverFn T)
    (cover' : CoverFn T') (clust : ClustFn S)
    (charts charts' : List (List ℕ)) (hc : cover y = .ok charts) (hc' : cover' y' = .ok charts')
    (hsame : SameCharts charts charts') (hg : GoodCharts X.length charts)
    (ho : OrderInsensitive clust) (hs : ClusteringSucceeds X charts clust)
    (order order' : List ℤ → List ℤ) (hord : ∀ l L, L ∈ order l ↔ L ∈ l)
    (hord' : ∀ l L, L ∈ order' l ↔ L ∈ l) :
    ∃ f g g' out out', mapperGraph X y cover clust = .ok g ∧
      mapperGraph X y' cover' clust = .ok g' ∧ RenamedGraph id f g g' ∧
      (∀ L, g.IsNode L → g'.nodes.get? (f L) = g.nodes.get? L) ∧
      mapperConnectedComponents order X y cover clust = .ok out ∧
      mapperConnectedComponents order' X y' cover' clust = .ok out' ∧
      SameComponents id X.length out out' := by
  obtain ⟨f, g, g', out, out', h1, h2, h⟩ := C70_graph X y cover (fun _ => cover' y') clust charts
    charts' hc hc' hsame hg ho hs order order' hord hord'
  exact ⟨f, g, g', out, out', h1, h2, h⟩

section cubical
variable {R : Type} [Field R] [LinearOrder R] [IsStrictOrderedRing R] [FloorRing R] {m m' : ℕ}

/-- **C93 (hypercubes).** With the same number of intervals and the same overlap fraction, two
lenses with the same columns - in any order, with repetitions, with further columns that are
constant up to the machine epsilon - give the same charts, the same Mapper graph and the same
connected components, for both algorithms, whatever the trees and random draws. -/
theorem C93_cubical (dflt dflt' : ℕ → R) (w : CubicalCover m R) (w' : CubicalCover m' R) (p : R)
    (H : CubOK dflt m w.params p) (H' : CubOK dflt' m' w'.params p)
    (hn : w.params.nIntervals = w'.params.nIntervals) (ha : w.algorithm = w'.algorithm)
    (hk : w.algorithm = "proximity" ∨ w.algorithm = "standard") (ρ ρ' : ℕ → ℕ)
    (y : List (Fin m → R)) (y' : List (Fin m' → R)) (hc : SameColumns y y')
    (X : List S) (hlen : X.length = y.length) (clust : ClustFn S)
    (ho : OrderInsensitive clust) (hs : ∀ k xs, ∃ lbls, clust k xs = .ok lbls)
    (order order' : List ℤ → List ℤ)
    (hord : ∀ l L, L ∈ order l ↔ L ∈ l) (hord' : ∀ l L, L ∈ order' l ↔ L ∈ l) :
    (∃ out out', w.apply dflt ρ y = .ok out ∧ w'.apply dflt' ρ' y' = .ok out' ∧
      SameCharts out out') ∧
    ∃ f g g' out out', mapperGraph X y (w.apply dflt ρ) clust = .ok g ∧
      mapperGraph X y' (w'.apply dflt' ρ') clust = .ok g' ∧ RenamedGraph id f g g' ∧
      (∀ L, g.IsNode L → g'.nodes.get? (f L) = g.nodes.get? L) ∧
      mapperConnectedComponents order X y (w.apply dflt ρ) clust = .ok out ∧
      mapperConnectedComponents order' X y' (w'.apply dflt' ρ') clust = .ok out' ∧
      SameComponents id X.length out out' := by
  have key : ∃ out out', w.apply dflt ρ y = .ok out ∧ w'.apply dflt' ρ' y' = .ok out' ∧
      SameCharts out out' := by
    by_cases hy : y = []
    · have hy' : y' = [] := by
        have := hc.length
        rw [hy] at this
        exact List.length_eq_zero_iff.mp this.symm
      subst hy hy'
      obtain ⟨a, e, h1, _⟩ := (C22_cubical_cover dflt ⟨w.params, none⟩ p H ρ []).2.2 _ hk
      obtain ⟨b, e', h2, _⟩ := (C22_cubical_cover dflt' ⟨w'.params, none⟩ p H' ρ' []).2.2 _ (ha ▸ hk)
      have nil : ∀ c : List (List ℕ), WellFormedCharts 0 c → c = [] := by
        intro c h
        by_contra h0
        obtain ⟨ids, hids⟩ := List.exists_mem_of_ne_nil _ h0
        obtain ⟨hne, hw⟩ := h ids hids
        obtain ⟨i, hi⟩ := List.exists_mem_of_ne_nil _ hne
        exact absurd (hw.2 i hi) (by omega)
      rw [nil a h1] at e
      rw [nil b h2] at e'
      exact ⟨[], [], e, e', .nil⟩
    · rcases hk with hk | hk
      · rw [(C28_delegates dflt w ρ y).1 hk, (C28_delegates dflt' w' ρ' _).1 (ha ▸ hk)]
        exact applyProximity_columns dflt dflt' ⟨w.params, none⟩ ⟨w'.params, none⟩ ρ ρ' y y' hy p H
          H' hn hc
      · rw [(C28_delegates dflt w ρ y).2.1 hk, (C28_delegates dflt' w' ρ' _).2.1 (ha ▸ hk)]
        exact applyStandard_columns dflt dflt' ⟨w.params, none⟩ ⟨w'.params, none⟩ ρ ρ' y y' hy p H
          H' hn hc
  refine ⟨key, ?_⟩
  obtain ⟨a, b, h1, h2, h3⟩ := key
  obtain ⟨a', e, hwf, _⟩ := (C22_cubical_cover dflt ⟨w.params, none⟩ p H ρ y).2.2 _ hk
  have e' : w.apply dflt ρ y = .ok a' := e
  rw [h1] at e'
  cases e'
  refine C93_graph X y y' _ _ clust a b h1 h2 h3 ?_ ho (fun k ids h => ?_) order order' hord hord'
  · intro ids h
    rw [hlen]
    exact (hwf ids h).2
  · obtain ⟨l, hl⟩ := hs k (pointsOf X ids)
    exact ⟨l, h, hl⟩

end cubical

/-- Three columns. -/
def pt3 (a b c : ℚ) : Fin 3 → ℚ := fun i => if i = 0 then a else if i = 1 then b else c

/-- Overlap `1/3` in three columns, other trees. -/
def threeCub : CubicalCover 3 ℚ :=
  ⟨⟨2, some (1 / 3), "hierarchical", 2, some 1, "random"⟩, "standard", none⟩

/-- Non-vacuity: the second lens shows the columns of the first in the other order, and a
constant column between them. -/
example : ∃ f g g' out out',
    mapperGraph [5, 6, -7] [pt2 0 7, pt2 2 5, pt2 4 6] (otherCub.apply (fun _ => 0) fun _ => 0)
      parity = .ok g ∧
    mapperGraph [5, 6, -7] [pt3 7 1 0, pt3 5 1 2, pt3 6 1 4]
      (threeCub.apply (fun _ => 0) fun n => n) parity = .ok g' ∧ RenamedGraph id f g g' ∧
    (∀ L, g.IsNode L → g'.nodes.get? (f L) = g.nodes.get? L) ∧
    mapperConnectedComponents id [5, 6, -7] [pt2 0 7, pt2 2 5, pt2 4 6]
      (otherCub.apply (fun _ => 0) fun _ => 0) parity = .ok out ∧
    mapperConnectedComponents id [5, 6, -7] [pt3 7 1 0, pt3 5 1 2, pt3 6 1 4]
      (threeCub.apply (fun _ => 0) fun n => n) parity = .ok out' ∧
    SameComponents id 3 out out' := by
  have rows : ∀ (r : ℕ) (x : Fin 2 → ℚ) (x' : Fin 3 → ℚ),
      [pt2 0 7, pt2 2 5, pt2 4 6][r]? = some x →
      [pt3 7 1 0, pt3 5 1 2, pt3 6 1 4][r]? = some x' → x 0 = x' 2 ∧ x 1 = x' 0 := by
    intro r x x' hx hx'
    have hr := getElem?_lt hx
    simp only [List.length_cons, List.length_nil] at hr
    interval_cases r <;> simp at hx hx' <;> subst hx <;> subst hx' <;> decide
  refine (C93_cubical (fun _ => 0) (fun _ => 0) otherCub threeCub (1 / 3)
    ⟨rfl, by norm_num, by norm_num, by decide, Or.inr rfl, by decide⟩
    ⟨rfl, by norm_num, by norm_num, by decide, Or.inr rfl, by decide⟩ rfl rfl (Or.inr rfl)
    (fun _ => 0) (fun n => n) [pt2 0 7, pt2 2 5, pt2 4 6] [pt3 7 1 0, pt3 5 1 2, pt3 6 1 4]
    ⟨rfl, ?_, ?_⟩ ([5, 6, -7] : List ℤ) rfl parity parity_insensitive (fun _ _ => ⟨_, rfl⟩) id id
    (fun _ _ => Iff.rfl) (fun _ _ => Iff.rfl)).2
  · intro i
    match i with
    | 0 => exact .inr ⟨2, fun r x x' h h' => (rows r x x' h h').1⟩
    | 1 => exact .inr ⟨0, fun r x x' h h' => (rows r x x' h h').2⟩
  · intro j
    match j with
    | 0 => exact .inr ⟨1, fun r x x' h h' => (rows r x x' h h').2⟩
    | 1 =>
      refine .inl fun x hx z hz => ?_
      simp only [List.mem_cons, List.not_mem_nil, or_false] at hx hz
      rcases hx with rfl | rfl | rfl <;> rcases hz with rfl | rfl | rfl <;> norm_num [pt3]
    | 2 => exact .inr ⟨0, fun r x x' h h' => (rows r x x' h h').1⟩

/-! ### Violation: the default overlap counts the columns -/

/-- Two intervals with the default overlap. -/
def plainCub (m : ℕ) : CubicalCover m ℝ := ⟨⟨2, none, "flat", 1, none, "disabled"⟩, "standard", none⟩

theorem plainCub_ok {m : ℕ} (hm : 1 ≤ m) : CubOK defaultOverlap m (plainCub m).params (defaultOverlap m) := by
  obtain ⟨h1, h2⟩ := C26_default_range hm
  exact ⟨rfl, h1, by linarith, le_of_lt (by exact Nat.one_lt_two), Or.inl rfl, le_refl 1⟩

/-- **C93 (violation).** With `overlap_frac=None` a constant column added to the lens does change
the result, as the overlap is chosen by the number of columns: of the rows 0, 0.4 and 1, the
latter two share a hypercube; with a column of zeros added they do not. -/
theorem C93_default_overlap_violation (ρ ρ' : ℕ → ℕ) :
    ∃ (y : List (Fin 1 → ℝ)) (y' : List (Fin 2 → ℝ)) (out out' : List (List ℕ)),
      SameColumns y y' ∧ CubOK defaultOverlap 1 (plainCub 1).params (defaultOverlap 1) ∧
      CubOK defaultOverlap 2 (plainCub 2).params (defaultOverlap 2) ∧
      (plainCub 1).apply defaultOverlap ρ y = .ok out ∧
      (plainCub 2).apply defaultOverlap ρ' y' = .ok out' ∧
      (∃ chart ∈ out, 1 ∈ chart ∧ 2 ∈ chart) ∧ ¬ ∃ chart ∈ out', 1 ∈ chart ∧ 2 ∈ chart := by
  obtain ⟨β, hβ, hβ1, hβ2, eβ⟩ := default_beta (m := 2) (by norm_num)
  have e1 : defaultOverlap 1 = 1 / 3 := by unfold defaultOverlap getOverlapFrac; norm_num
  have hβ3 : (7 : ℝ) / 10 < β := by nlinarith
  have hq : (0 : ℝ) < 2 - β := by linarith
  let v : Fin 2 → ℝ → ℝ := fun i a => if i = 0 then a else 0
  let y : List (Fin 1 → ℝ) := [fun _ => 0, fun _ => 2 / 5, fun _ => 1]
  let y' : List (Fin 2 → ℝ) := [fun i => v i 0, fun i => v i (2 / 5), fun i => v i 1]
  have hb : IsBounds y (fun _ => 0) (fun _ => 1) := by
    intro i
    refine ⟨⟨fun _ => 0, by simp [y], rfl⟩, ⟨fun _ => 1, by simp [y], rfl⟩, ?_⟩
    intro x hx
    simp only [y, List.mem_cons, List.not_mem_nil, or_false] at hx
    rcases hx with rfl | rfl | rfl <;> norm_num
  have hb' : IsBounds y' (fun _ => 0) (fun i => v i 1) := by
    intro i
    refine ⟨⟨fun i => v i 0, by simp [y'], by simp [v]⟩, ⟨fun i => v i 1, by simp [y'], rfl⟩, ?_⟩
    intro x hx
    simp only [y', List.mem_cons, List.not_mem_nil, or_false] at hx
    match i with
    | 0 => rcases hx with rfl | rfl | rfl <;> norm_num [v]
    | 1 => rcases hx with rfl | rfl | rfl <;> norm_num [v]
  have h1 := plainCub_ok (m := 1) (by norm_num)
  have h2 := plainCub_ok (m := 2) (by norm_num)
  obtain ⟨cells, out, a1, _, a2, a3, _⟩ := applyStandard_ok defaultOverlap ⟨(plainCub 1).params, none⟩
    ρ y (by simp [y]) _ h1 hb
  obtain ⟨cells', out', b1, _, b2, b3, _⟩ := applyStandard_ok defaultOverlap
    ⟨(plainCub 2).params, none⟩ ρ' y' (by simp [y']) _ h2 hb'
  refine ⟨y, y', out, out', ⟨rfl, fun i => .inr ⟨0, ?_⟩, ?_⟩, h1, h2, ?_, ?_, ?_, ?_⟩
  · intro r x x' hx hx'
    have hr := getElem?_lt hx
    simp only [y, List.length_cons, List.length_nil] at hr
    interval_cases r <;> simp [y, y'] at hx hx' <;> subst hx <;> subst hx' <;> simp [v]
  · intro j
    match j with
    | 0 =>
      refine .inr ⟨0, ?_⟩
      intro r x x' hx hx'
      have hr := getElem?_lt hx
      simp only [y, List.length_cons, List.length_nil] at hr
      interval_cases r <;> simp [y, y'] at hx hx' <;> subst hx <;> subst hx' <;> simp [v]
    | 1 =>
      refine .inl fun x hx z hz => ?_
      simp only [y', List.mem_cons, List.not_mem_nil, or_false] at hx hz
      rcases hx with rfl | rfl | rfl <;> rcases hz with rfl | rfl | rfl <;> norm_num [v]
  · rw [(C28_delegates defaultOverlap (plainCub 1) ρ y).2.1 rfl]; exact a1
  · rw [(C28_delegates defaultOverlap (plainCub 2) ρ' y').2.1 rfl]; exact b1
  · have hcell : (fun _ => 1) ∈ cells := (a2 _).mpr ⟨fun _ => 1, by simp [y], fun i =>
      ⟨fun _ => by
        show InCell (0 : ℝ) 1 2 1 1
        unfold InCell cellLeft cellRight
        norm_num, fun h => absurd (by unfold Spread; norm_num) h⟩⟩
    obtain ⟨k, hk⟩ := List.getElem?_of_mem hcell
    have hk' := getElem?_lt hk
    obtain ⟨chart, hchart⟩ := lt_getElem? (l := out) (k := k) (by rw [← a3.length_eq]; exact hk')
    have hl := (List.forall₂_iff_get.mp a3).2 k hk' (getElem?_lt hchart)
    rw [List.get_eq_getElem, List.get_eq_getElem, (List.getElem?_eq_some_iff.mp hk).2,
      (List.getElem?_eq_some_iff.mp hchart).2, e1] at hl
    refine ⟨chart, List.mem_of_getElem? hchart, ?_, ?_⟩
    · refine (hl.1.2 1).mpr ⟨fun _ => 2 / 5, rfl, fun i _ => ?_⟩
      show InBox (0 : ℝ) 1 2 (1 / 3) 1 (2 / 5)
      unfold InBox cellLeft cellRight boxWidth
      norm_num
    · refine (hl.1.2 2).mpr ⟨fun _ => 1, rfl, fun i _ => ?_⟩
      show InBox (0 : ℝ) 1 2 (1 / 3) 1 1
      unfold InBox cellLeft cellRight boxWidth
      norm_num
  · rintro ⟨chart, hchart, hi1, hi2⟩
    obtain ⟨k, hk⟩ := List.getElem?_of_mem hchart
    have hk' := getElem?_lt hk
    obtain ⟨cell, hcell⟩ := lt_getElem? (l := cells') (k := k) (by rw [b3.length_eq]; exact hk')
    have hl := (List.forall₂_iff_get.mp b3).2 k (getElem?_lt hcell) hk'
    rw [List.get_eq_getElem, List.get_eq_getElem, (List.getElem?_eq_some_iff.mp hcell).2,
      (List.getElem?_eq_some_iff.mp hk).2] at hl
    have hs : Spread (fun _ : Fin 2 => (0 : ℝ)) (fun i => v i 1) 0 := by
      unfold Spread; norm_num [v]
    obtain ⟨x, hx, hx1⟩ := (hl.1.2 1).mp hi1
    obtain ⟨z, hz, hz1⟩ := (hl.1.2 2).mp hi2
    have hx2 := hx1 0 hs
    have hz2 := hz1 0 hs
    simp [y'] at hx hz
    subst hx hz
    have hbox : defaultOverlap 2 * boxWidth (0 : ℝ) 1 2 (defaultOverlap 2) / 2 = (1 - β) / 4 := by
      rw [eβ]
      unfold boxWidth
      push_cast
      field_simp
      ring
    have hx3 : InBox (0 : ℝ) 1 2 (defaultOverlap 2) (cell 0) (2 / 5) := hx2
    have hz3 : InBox (0 : ℝ) 1 2 (defaultOverlap 2) (cell 0) 1 := hz2
    unfold InBox at hx3 hz3
    rw [hbox] at hx3 hz3
    unfold cellLeft cellRight at hx3 hz3
    have c1 : ((cell 0 : ℤ) : ℝ) < 1 := by
      have := hx3.1; push_cast at this; linarith
    have c2 : (0 : ℝ) < ((cell 0 : ℤ) : ℝ) := by
      have := hz3.2; push_cast at this; linarith
    have c3 : cell 0 < 1 := by exact_mod_cast c1
    have c4 : 0 < cell 0 := by exact_mod_cast c2
    omega

/-! ### Covers that measure distances -/

section metrics
variable {m m' : ℕ} {ι : Fin m → Fin m'}

theorem sum_placed (hι : Function.Injective ι) {x z : RVec m} {x' z' : RVec m'}
    (hx : PlacedAt ι x x') (hz : PlacedAt ι z z') (he : AgreeElsewhere ι x' z') (φ : ℝ → ℝ)
    (h0 : φ 0 = 0) : ∑ j, φ (x' j - z' j) = ∑ i, φ (x i - z i) := by
  symm
  refine Fintype.sum_of_injective ι hι _ _ (fun j hj => ?_) fun i => by rw [hx i, hz i]
  rw [he j fun i hi => hj ⟨i, hi⟩, sub_self, h0]

theorem chebyshev_placed {x z : RVec m} {x' z' : RVec m'}
    (hx : PlacedAt ι x x') (hz : PlacedAt ι z z') (he : AgreeElsewhere ι x' z') :
    chebyshevDist x' z' = chebyshevDist x z := by
  apply le_antisymm
  · rw [chebyshevDist_le]
    obtain ⟨h0, h1⟩ := (chebyshevDist_le x z _).mp le_rfl
    refine ⟨h0, fun j => ?_⟩
    by_cases hj : ∃ i, ι i = j
    · obtain ⟨i, rfl⟩ := hj
      rw [hx i, hz i]; exact h1 i
    · rw [he j fun i hi => hj ⟨i, hi⟩, sub_self, abs_zero]; exact h0
  · rw [chebyshevDist_le]
    obtain ⟨h0, h1⟩ := (chebyshevDist_le x' z' _).mp le_rfl
    refine ⟨h0, fun i => ?_⟩
    rw [← hx i, ← hz i]; exact h1 (ι i)

/-- **C93 (distances).** The distance of two vectors under a metric of the library other than
`cosine` does not change when their coordinates are put in another order and further coordinates
are added in which the two agree. (A negative `p` of `minkowski`, which does not give a metric,
is left out.) -/
theorem C93_distance (hι : Function.Injective ι) (s : String) (hs : s ≠ "cosine")
    (kw : PyDict String KwVal) (hp : ∀ p, kw.get? "p" = some (.num (.real p)) → 0 ≤ p)
    (d : Dist m) (d' : Dist m') (hd : getMetric (.name s) kw = .ok d)
    (hd' : getMetric (.name s) kw = .ok d') (x z : RVec m) (x' z' : RVec m')
    (hx : PlacedAt ι x x') (hz : PlacedAt ι z z') (he : AgreeElsewhere ι x' z') :
    d' x' z' = d x z := by
  have eu : euclidean x' z' = euclidean x z := by
    unfold euclidean npNorm2
    congr 2
    exact sum_placed hι hx hz he (fun t => t * t) (by simp)
  have mi : ∀ p : ℝ, 0 ≤ p → (Except.ok (npNorm (.real p) (x' - z')) : Py ℝ) =
      .ok (npNorm (.real p) (x - z)) := by
    intro p hp
    rcases hp.eq_or_lt with rfl | hp
    · unfold npNorm
      simp only [if_true]
      have := sum_placed hι hx hz he (fun t => if t ≠ 0 then (1 : ℝ) else 0) (by simp)
      simp only [Finset.sum_boole] at this
      exact congrArg _ this
    · rw [npNorm_pos hp, npNorm_pos hp]
      unfold minkowskiFormula
      rw [sum_placed hι hx hz he (fun t => |t| ^ p) (by simp [hp.ne'])]
  have ch : chebyshev x' z' = chebyshev x z := by
    unfold chebyshev
    rw [npNorm_posInf, npNorm_posInf, chebyshev_placed hx hz he]
  have ma : manhattan x' z' = manhattan x z := mi 1 zero_le_one
  have call : ∀ {n : ℕ} {f g : Dist n}, callNoArgs f kw = .ok g → g = f := by
    intro n f g h
    unfold callNoArgs at h
    split at h
    · exact (Except.ok.inj h).symm
    · cases h
  unfold getMetric at hd hd'
  simp only at hd hd'
  split at hd
  · rw [if_pos ‹_›] at hd'
    rw [call hd, call hd']; exact eu
  rw [if_neg ‹_›] at hd'
  split at hd
  · rw [if_pos ‹_›] at hd'
    rw [call hd, call hd']; exact ma
  rw [if_neg ‹_›] at hd'
  split at hd
  · rw [if_pos ‹_›] at hd'
    unfold callMinkowski at hd hd'
    split at hd
    · rename_i k v hkw
      rw [hkw] at hd'
      simp only at hd hd'
      split at hd
      · rename_i hk
        rw [if_pos hk] at hd'
        cases v with
        | other => cases hd
        | num p =>
          simp only [Except.ok.injEq] at hd hd'
          subst hd hd'
          cases p with
          | posInf => exact ch
          | negInf => exact ch
          | real p =>
            have hget : kw.get? "p" = some (.num (.real p)) := by
              refine PyDict.get?_eq_some_of_mem (by simp [PyDict.keys, hkw]) ?_
              rw [hkw, hk]; simp
            unfold minkowski
            simp only
            split
            · exact ma
            split
            · exact eu
            exact mi p (hp p hget)
      · cases hd
    · cases hd
  rw [if_neg ‹_›] at hd'
  split at hd
  · rw [if_pos ‹_›] at hd'
    rw [call hd, call hd']; exact ch
  cases hd

/-- **C93 (cosine).** The cosine distance does not change when the coordinates are put in another
order and further coordinates are added that are zero in both vectors. -/
theorem C93_cosine (hι : Function.Injective ι) (x z : RVec m) (x' z' : RVec m')
    (hx : PlacedAt ι x x') (hz : PlacedAt ι z z')
    (he : ∀ j, (∀ i, ι i ≠ j) → x' j = 0 ∧ z' j = 0) : cosine x' z' = cosine x z := by
  have key : ∀ {a b : RVec m} {a' b' : RVec m'}, PlacedAt ι a a' → PlacedAt ι b b' →
      (∀ j, (∀ i, ι i ≠ j) → a' j = 0) → npDot a' b' = npDot a b := by
    intro a b a' b' ha hb h0
    symm
    refine Fintype.sum_of_injective ι hι _ _ (fun j hj => ?_) fun i => by rw [ha i, hb i]
    rw [h0 j fun i hi => hj ⟨i, hi⟩, zero_mul]
  have h1 := key hx hz fun j hj => (he j hj).1
  have h2 : npNorm2 x' = npNorm2 x := congrArg Real.sqrt (key hx hx fun j hj => (he j hj).1)
  have h3 : npNorm2 z' = npNorm2 z := congrArg Real.sqrt (key hz hz fun j hj => (he j hj).2)
  unfold cosine
  simp only [h1, h2, h3]

/-- The rows of `y'` are those of `y` with the coordinates in other places, given by `ι`, and with
further columns which are constant. -/
structure PlacedRows (ι : Fin m → Fin m') (y : List (RVec m)) (y' : List (RVec m')) : Prop where
  injective : Function.Injective ι
  length : y.length = y'.length
  placed : ∀ (r : ℕ) x x', y[r]? = some x → y'[r]? = some x' → PlacedAt ι x x'
  constant : ∀ x ∈ y', ∀ z ∈ y', AgreeElsewhere ι x z

theorem PlacedRows.same {y : List (RVec m)} {y' : List (RVec m')} (h : PlacedRows ι y y')
    {s : String} (hs : s ≠ "cosine") {kw : PyDict String KwVal}
    (hp : ∀ p, kw.get? "p" = some (.num (.real p)) → 0 ≤ p)
    {d : Dist m} {d' : Dist m'} (hd : getMetric (.name s) kw = .ok d)
    (hd' : getMetric (.name s) kw = .ok d') {δ : RVec m → RVec m → ℝ}
    {δ' : RVec m' → RVec m' → ℝ} (hδ : ∀ x z, d x z = .ok (δ x z))
    (hδ' : ∀ x z, d' x z = .ok (δ' x z)) :
    RowsAgree y y' fun x z x' z' => δ' x' z' = δ x z := by
  refine ⟨h.length, fun i j x z x' z' hx hz hx' hz' => ?_⟩
  have := C93_distance h.injective s hs kw hp d d' hd hd' x z x' z' (h.placed i x x' hx hx')
    (h.placed j z z' hz hz') (h.constant x' (List.mem_of_getElem? hx') z' (List.mem_of_getElem? hz'))
  rw [hδ, hδ'] at this
  exact Except.ok.inj this

/-- **C93 (balls).** Two `BallCover`s with the same radius and the same metric of the library,
other than `cosine`, one given a lens, the other the lens with its columns in another order and
with constant columns added: the charts, the Mapper graph and the connected components are the
same, whatever the trees and random draws. -/
theorem C93_ball (c : BallCover (RVec m) ℝ) (c' : BallCover (RVec m') ℝ) (H : BallOK c.params)
    (H' : BallOK c'.params) (hr : c.params.radius = c'.params.radius) (h0 : 0 < c.params.radius)
    (s : String) (hs : s ≠ "cosine") (kw : PyDict String KwVal)
    (hp : ∀ p, kw.get? "p" = some (.num (.real p)) → 0 ≤ p) (d : Dist m) (d' : Dist m')
    (hd : getMetric (.name s) kw = .ok d) (hd' : getMetric (.name s) kw = .ok d')
    (hm : ∀ x z, d x z = .ok (c.params.metric x z))
    (hm' : ∀ x z, d' x z = .ok (c'.params.metric x z)) (ρ ρ' : ℕ → ℕ)
    (y : List (RVec m)) (y' : List (RVec m')) (hy : PlacedRows ι y y')
    (X : List S) (hlen : X.length = y.length) (clust : ClustFn S)
    (ho : OrderInsensitive clust) (hsucc : ∀ k xs, ∃ lbls, clust k xs = .ok lbls)
    (order order' : List ℤ → List ℤ)
    (hord : ∀ l L, L ∈ order l ↔ L ∈ l) (hord' : ∀ l L, L ∈ order' l ↔ L ∈ l) :
    (∃ out out', c.apply ρ y = .ok out ∧ c'.apply ρ' y' = .ok out' ∧ SameCharts out out') ∧
    ∃ f g g' out out', mapperGraph X y (c.apply ρ) clust = .ok g ∧
      mapperGraph X y' (c'.apply ρ') clust = .ok g' ∧ RenamedGraph id f g g' ∧
      (∀ L, g.IsNode L → g'.nodes.get? (f L) = g.nodes.get? L) ∧
      mapperConnectedComponents order X y (c.apply ρ) clust = .ok out ∧
      mapperConnectedComponents order' X y' (c'.apply ρ') clust = .ok out' ∧
      SameComponents id X.length out out' := by
  have hsame := hy.same hs hp hd hd' hm hm'
  obtain ⟨a, b, ha, hb, hab⟩ := C86_ball c c' H H' ρ ρ' y y' ⟨hy.length,
    fun i j x z x' z' h1 h2 h3 h4 => by beta_reduce; rw [hsame.2 i j x z x' z' h1 h2 h3 h4, hr]⟩
  refine ⟨⟨a, b, ha, hb, hab⟩, ?_⟩
  obtain ⟨a', _, ha', hwf, _⟩ := C18_ball_cover c H h0 ρ y
  rw [ha] at ha'
  cases ha'
  refine C93_graph X y y' _ _ clust a b ha hb hab ?_ ho (fun k ids h => ?_) order order'
    hord hord'
  · intro ids h
    rw [hlen]
    exact (hwf ids h).2
  · obtain ⟨l, hl⟩ := hsucc k (pointsOf X ids)
    exact ⟨l, h, hl⟩

/-- **C93 (nearest neighbours).** The same for `KNNCover`, if no two rows are equally far from a
third. -/
theorem C93_knn (c : KnnCover (RVec m) ℝ) (c' : KnnCover (RVec m') ℝ) (H : KnnOK c.params)
    (H' : KnnOK c'.params) (hk : c.params.neighbors = c'.params.neighbors)
    (s : String) (hs : s ≠ "cosine") (kw : PyDict String KwVal)
    (hp : ∀ p, kw.get? "p" = some (.num (.real p)) → 0 ≤ p) (d : Dist m) (d' : Dist m')
    (hd : getMetric (.name s) kw = .ok d) (hd' : getMetric (.name s) kw = .ok d')
    (hm : ∀ x z, d x z = .ok (c.params.metric x z))
    (hm' : ∀ x z, d' x z = .ok (c'.params.metric x z)) (ρ ρ' : ℕ → ℕ)
    (y : List (RVec m)) (y' : List (RVec m')) (hy : PlacedRows ι y y')
    (X : List S) (hlen : X.length = y.length) (clust : ClustFn S)
    (ho : OrderInsensitive clust) (hsucc : ∀ k xs, ∃ lbls, clust k xs = .ok lbls)
    (order order' : List ℤ → List ℤ)
    (hord : ∀ l L, L ∈ order l ↔ L ∈ l) (hord' : ∀ l L, L ∈ order' l ↔ L ∈ l)
    (hties : ∀ q ∈ y, ∀ (i j : ℕ) xi xj, y[i]? = some xi → y[j]? = some xj →
      c.params.metric q xi = c.params.metric q xj → i = j) :
    (∃ out out', c.apply ρ y = .ok out ∧ c'.apply ρ' y' = .ok out' ∧ SameCharts out out') ∧
    ∃ f g g' out out', mapperGraph X y (c.apply ρ) clust = .ok g ∧
      mapperGraph X y' (c'.apply ρ') clust = .ok g' ∧ RenamedGraph id f g g' ∧
      (∀ L, g.IsNode L → g'.nodes.get? (f L) = g.nodes.get? L) ∧
      mapperConnectedComponents order X y (c.apply ρ) clust = .ok out ∧
      mapperConnectedComponents order' X y' (c'.apply ρ') clust = .ok out' ∧
      SameComponents id X.length out out' := by
  have hsame := hy.same hs hp hd hd' hm hm'
  obtain ⟨a, b, ha, hb, hab⟩ := C86_knn_partial c c' H H' hk ρ ρ' y y' hy.length (fun q q' k hq hq' => ⟨hy.length,
    fun i j x z x' z' h1 h2 h3 h4 => by
      beta_reduce
      rw [hsame.2 k i q x q' x' hq h1 hq' h3, hsame.2 k j q z q' z' hq h2 hq' h4]⟩) hties
  refine ⟨⟨a, b, ha, hb, hab⟩, C93_graph X y y' _ _ clust a b ha hb hab ?_ ho (fun k ids h => ?_)
    order order' hord hord'⟩
  · rw [hlen]; exact knn_goodCharts c H ρ y ha
  · obtain ⟨l, hl⟩ := hsucc k (pointsOf X ids)
    exact ⟨l, h, hl⟩

end metrics

/-! ### Non-vacuity -/

/-- Balls of radius 2 for the Euclidean distance. -/
noncomputable def planeBall (m : ℕ) (kind : String) : BallCover (RVec m) ℝ :=
  ⟨⟨2, euclideanFormula, kind, 1, none, "furthest"⟩, none⟩

theorem planeBall_ok (m : ℕ) (kind : String) (h : IsKind kind) :
    BallOK (planeBall m kind).params :=
  ⟨euclideanFormula_isMetric.pseudo, h, le_refl 1⟩

/-- Three rows of three columns. -/
def wide (a b c : ℝ) : RVec 3 := fun i => if i = 0 then a else if i = 1 then b else c

/-- Two columns. -/
def narrow (a b : ℝ) : RVec 2 := fun i => if i = 0 then a else b

/-- Non-vacuity: points of the plane, and the same points with the coordinates exchanged and a
constant coordinate between them. -/
example : ∃ f g g' out out',
    mapperGraph [5, 6, -7] [narrow 0 7, narrow 2 5, narrow 4 6] ((planeBall 2 "flat").apply
      fun _ => 0) parity = .ok g ∧
    mapperGraph [5, 6, -7] [wide 7 1 0, wide 5 1 2, wide 6 1 4] ((planeBall 3 "hierarchical").apply
      fun n => n) parity = .ok g' ∧ RenamedGraph id f g g' ∧
    (∀ L, g.IsNode L → g'.nodes.get? (f L) = g.nodes.get? L) ∧
    mapperConnectedComponents id [5, 6, -7] [narrow 0 7, narrow 2 5, narrow 4 6]
      ((planeBall 2 "flat").apply fun _ => 0) parity = .ok out ∧
    mapperConnectedComponents id [5, 6, -7] [wide 7 1 0, wide 5 1 2, wide 6 1 4]
      ((planeBall 3 "hierarchical").apply fun n => n) parity = .ok out' ∧
    SameComponents id 3 out out' := by
  refine (C93_ball (ι := fun i : Fin 2 => if i = 0 then (2 : Fin 3) else 0) (planeBall 2 "flat")
    (planeBall 3 "hierarchical") (planeBall_ok 2 _ (Or.inl rfl)) (planeBall_ok 3 _ (Or.inr rfl))
    rfl two_pos "euclidean" (by decide) PyDict.empty (fun p h => by cases h) euclidean euclidean
    rfl rfl (fun x z => by rw [euclidean, npNorm2_sub]; rfl)
    (fun x z => by rw [euclidean, npNorm2_sub]; rfl) (fun _ => 0) (fun n => n)
    [narrow 0 7, narrow 2 5, narrow 4 6] [wide 7 1 0, wide 5 1 2, wide 6 1 4]
    ⟨by decide, rfl, ?_, ?_⟩ ([5, 6, -7] : List ℤ) rfl parity parity_insensitive
    (fun _ _ => ⟨_, rfl⟩) id id (fun _ _ => Iff.rfl) (fun _ _ => Iff.rfl)).2
  · intro r x x' hx hx' i
    have hr := getElem?_lt hx
    simp only [List.length_cons, List.length_nil] at hr
    interval_cases r <;> simp at hx hx' <;> subst hx <;> subst hx' <;>
      match i with
      | 0 => simp [wide, narrow]
      | 1 => simp [wide, narrow]
  · intro x hx z hz j hj
    simp only [List.mem_cons, List.not_mem_nil, or_false] at hx hz
    match j with
    | 0 => exact absurd rfl (hj 1)
    | 1 => rcases hx with rfl | rfl | rfl <;> rcases hz with rfl | rfl | rfl <;> simp [wide]
    | 2 => exact absurd rfl (hj 0)

/-- Two neighbours for the Chebyshev distance. -/
noncomputable def lineKnn (m : ℕ) (kind : String) : KnnCover (RVec m) ℝ :=
  ⟨⟨2, chebyshevDist, kind, none, 0, "disabled"⟩, none⟩

/-- Non-vacuity of the case of the neighbours: rows on a line, `0, 1, 3`, and with a constant
column in front. -/
example : ∃ f g g',
    mapperGraph [5, 6, -7] [fun _ => 0, fun _ => 1, fun _ => 3] ((lineKnn 1 "flat").apply fun _ => 0)
      parity = .ok g ∧
    mapperGraph [5, 6, -7] [narrow 9 0, narrow 9 1, narrow 9 3]
      ((lineKnn 2 "hierarchical").apply fun n => n) parity = .ok g' ∧ RenamedGraph id f g g' := by
  refine (fun key => ?_) (C93_knn (ι := fun _ => 1)
    (lineKnn 1 "flat") (lineKnn 2 "hierarchical")
    ⟨chebyshevDist_pseudo, Or.inl rfl, Nat.le_succ 1⟩
    ⟨chebyshevDist_pseudo, Or.inr rfl, Nat.le_succ 1⟩ rfl "chebyshev" (by decide) PyDict.empty
    (fun p h => by cases h) chebyshev chebyshev rfl rfl
    (fun x z => by rw [chebyshev, npNorm_posInf]; rfl)
    (fun x z => by rw [chebyshev, npNorm_posInf]; rfl) (fun _ => 0) (fun n => n)
    [fun _ => 0, fun _ => 1, fun _ => 3] [narrow 9 0, narrow 9 1, narrow 9 3]
    ⟨fun a b _ => Subsingleton.elim a b, rfl, ?_, ?_⟩ ([5, 6, -7] : List ℤ) rfl parity
    parity_insensitive (fun _ _ => ⟨_, rfl⟩) id id (fun _ _ => Iff.rfl) (fun _ _ => Iff.rfl) ?_)
  · obtain ⟨_, f, g, g', _, _, h1, h2, h3, _⟩ := key
    exact ⟨f, g, g', h1, h2, h3⟩
  · intro r x x' hx hx' i
    have hr := getElem?_lt hx
    simp only [List.length_cons, List.length_nil] at hr
    interval_cases r <;> simp at hx hx' <;> subst hx <;> subst hx' <;> simp [narrow]
  · intro x hx z hz j hj
    simp only [List.mem_cons, List.not_mem_nil, or_false] at hx hz
    match j with
    | 0 => rcases hx with rfl | rfl | rfl <;> rcases hz with rfl | rfl | rfl <;> simp [narrow]
    | 1 => exact absurd rfl (hj 0)
  · intro q hq i j xi xj hi hj
    have hi' := getElem?_lt hi
    have hj' := getElem?_lt hj
    simp only [List.length_cons, List.length_nil] at hi' hj'
    simp only [List.mem_cons, List.not_mem_nil, or_false] at hq
    interval_cases i <;> interval_cases j <;> simp at hi hj <;> subst hi <;> subst hj <;>
      rcases hq with rfl | rfl | rfl <;> norm_num [lineKnn, chebyshevDist, abs_of_pos, abs_of_neg]

end Verif

import Verif.Proof.Gaps
import Verif.Props.Refine
import Verif.Props.Library

/-!
# C114: rows that are close together end up in one component
-/

set_option autoImplicit false
set_option linter.unusedSectionVars false

namespace Verif

section
variable {S R : Type} [Field R] [LinearOrder R] [IsStrictOrderedRing R] [FloorRing R] {m : ℕ}

/-- **C114 (standard hypercubes, charts).** With `CubicalCover(algorithm="standard")`, every row has a
chart that contains all rows which differ from it, in every column that is not constant, by less than
half of the length in which adjacent intervals overlap. -/
theorem C114_standard_charts_partial (dflt : ℕ → R) (c : CubicalCover m R) (p : R)
    (H : CubOK dflt m c.params p) (ha : c.algorithm = "standard") (ρ : ℕ → ℕ)
    (y : List (Fin m → R)) (hy : y ≠ []) (lo hi : Fin m → R) (hb : IsBounds y lo hi) :
    ∃ charts, c.apply dflt ρ y = .ok charts ∧ WellFormedCharts y.length charts ∧
      Covers y.length charts ∧
      ∀ (i : ℕ) x, y[i]? = some x → ∃ chart ∈ charts, ∀ (j : ℕ) z, y[j]? = some z →
        HalfOverlapApart lo hi c.params.nIntervals p x z → j ∈ chart := by
  obtain ⟨ps, alg, st⟩ := c
  cases ha
  obtain ⟨cells, out, e, h1, h2, h3, h4⟩ := applyStandard_ok dflt ⟨ps, none⟩ ρ y hy p H hb
  refine ⟨out, e, wellFormed_of_forall₂ h3, h4, fun i x hx => ?_⟩
  obtain ⟨cell, hcell⟩ := exists_isCell hb (List.mem_of_getElem? hx) H.intervals
  obtain ⟨k, hk, hke⟩ := List.mem_iff_getElem.mp ((h2 cell).mpr ⟨x, List.mem_of_getElem? hx, hcell⟩)
  have hk' : k < out.length := h3.length_eq ▸ hk
  have := h3.get hk hk'
  refine ⟨out[k], List.getElem_mem hk', fun j z hz hxz => ?_⟩
  refine (this.1.2 j).mpr ⟨z, hz, ?_⟩
  rw [List.get_eq_getElem, hke]
  exact inHypercube_near hcell hxz

/-- **C114 (standard hypercubes, graph).** With `CubicalCover(algorithm="standard")` and the trivial
clustering, rows of the lens which differ, in every column that is not constant, by less than half of
the length in which adjacent intervals overlap are together in a node. Rows linked by such steps are
in one component, and if all rows are linked then so are all nodes. Missing: the other covers, with
which this fails (see below), except for lenses with one column (`C114_line_partial`). -/
theorem C114_standard_partial (dflt : ℕ → R) (c : CubicalCover m R) (p : R)
    (H : CubOK dflt m c.params p) (ha : c.algorithm = "standard") (ρ : ℕ → ℕ) (X : List S)
    (y : List (Fin m → R)) (hlen : X.length = y.length) (hy : y ≠ []) (lo hi : Fin m → R)
    (hb : IsBounds y lo hi) (order : List ℤ → List ℤ) (ho : ∀ l L, L ∈ order l ↔ L ∈ l) :
    ∃ g out, mapperGraph X y (c.apply dflt ρ) (fun _ => trivialClustering) = .ok g ∧
      mapperConnectedComponents order X y (c.apply dflt ρ) (fun _ => trivialClustering) = .ok out ∧
      out.length = X.length ∧ NoBreaks y (HalfOverlapApart lo hi c.params.nIntervals p) g out := by
  obtain ⟨charts, e, h1, h2, h3⟩ := C114_standard_charts_partial dflt c p H ha ρ y hy lo hi hb
  refine noBreaks X y hlen _ charts e h1 h2 _ ?_ order ho
  rintro i j ⟨a, b, hi', hj', hab⟩
  obtain ⟨chart, h4, h5⟩ := h3 i a hi'
  refine ⟨chart, h4, h5 i a hi' fun k hk => ?_, h5 j b hj' hab⟩
  have := (abs_nonneg _).trans_lt (hab k hk)
  simpa using this

/-- **C114 (lenses with one column).** With a lens of one column, it holds for both algorithms of
`CubicalCover` and steps which are shorter than the overlap of adjacent intervals and not longer than
the gap between intervals that are not adjacent. The latter is positive if `overlap_frac` is less than
one half. -/
theorem C114_line_partial (dflt : ℕ → R) (c : CubicalCover 1 R) (p : R)
    (H : CubOK dflt 1 c.params p) (ha : c.algorithm = "proximity" ∨ c.algorithm = "standard")
    (ρ : ℕ → ℕ) (X : List S) (y : List (Fin 1 → R)) (hlen : X.length = y.length) (hy : y ≠ [])
    (lo hi : Fin 1 → R) (hb : IsBounds y lo hi) (order : List ℤ → List ℤ)
    (ho : ∀ l L, L ∈ order l ↔ L ∈ l) :
    ∃ g out, mapperGraph X y (c.apply dflt ρ) (fun _ => trivialClustering) = .ok g ∧
      mapperConnectedComponents order X y (c.apply dflt ρ) (fun _ => trivialClustering) = .ok out ∧
      out.length = X.length ∧
      NoBreaks y (fun x z => Spread lo hi 0 → |x 0 - z 0| < overlapLength lo hi c.params.nIntervals p 0 ∧
        |x 0 - z 0| ≤ gapLength lo hi c.params.nIntervals p 0) g out := by
  have key : ∃ (cells : List (Fin 1 → ℤ)) (charts : List (List ℕ)), c.apply dflt ρ y = .ok charts ∧
      List.Forall₂ (fun cell chart =>
        ListsExactly y (InHypercube lo hi c.params.nIntervals p cell) chart ∧ chart ≠ [])
          cells charts ∧ Covers y.length charts := by
    obtain ⟨ps, alg, st⟩ := c
    rcases ha with rfl | rfl
    · obtain ⟨cells, out, e, _, _, h, h'⟩ := applyProximity_ok dflt ⟨ps, none⟩ ρ y hy p H hb
      exact ⟨cells, out, e, h, h'⟩
    · obtain ⟨cells, out, e, _, _, h, h'⟩ := applyStandard_ok dflt ⟨ps, none⟩ ρ y hy p H hb
      exact ⟨cells, out, e, h, h'⟩
  obtain ⟨cells, charts, e, h1, h2⟩ := key
  refine noBreaks X y hlen _ charts e (wellFormed_of_forall₂ h1) h2 _ ?_ order ho
  rintro i j ⟨a, b, hi', hj', hab⟩
  have hbox : ∀ chart ∈ charts, ∃ cell : Fin 1 → ℤ,
      ListsExactly y (InHypercube lo hi c.params.nIntervals p cell) chart := by
    intro chart hch
    obtain ⟨k, hk, rfl⟩ := List.mem_iff_getElem.mp hch
    exact ⟨_, (h1.get (h1.length_eq ▸ hk) hk).1⟩
  obtain ⟨ch, hch, hic⟩ := h2 i (getElem?_lt hi')
  obtain ⟨ch', hch', hjc⟩ := h2 j (getElem?_lt hj')
  obtain ⟨cell, hcell⟩ := hbox ch hch
  obtain ⟨cell', hcell'⟩ := hbox ch' hch'
  obtain ⟨a', ha', hxa⟩ := (hcell.2 i).mp hic
  obtain ⟨b', hb', hxb⟩ := (hcell'.2 j).mp hjc
  rw [hi'] at ha'; cases ha'
  rw [hj'] at hb'; cases hb'
  by_cases hs : Spread lo hi 0
  · have hlt : lo 0 < hi 0 := by
      have : (0 : R) < 1 / 2 ^ 52 := by positivity
      have := this.trans hs
      linarith
    obtain ⟨d1, d2⟩ := hab hs
    rcases inBox_share H.intervals hlt H.pos H.lt_one (hxa 0 hs) (hxb 0 hs) d1 d2 with h | h
    · refine ⟨ch, hch, hic, (hcell.2 j).mpr ⟨b, hj', fun k hk => ?_⟩⟩
      rw [Subsingleton.elim k 0]; exact h
    · refine ⟨ch', hch', (hcell'.2 i).mpr ⟨a, hi', fun k hk => ?_⟩, hjc⟩
      rw [Subsingleton.elim k 0]; exact h
  · refine ⟨ch, hch, hic, (hcell.2 j).mpr ⟨b, hj', fun k hk => ?_⟩⟩
    rw [Subsingleton.elim k 0] at hk
    exact absurd hk hs

end

section library
variable {base : World} (I : Interp) (ρ : ℕ → ℕ) {h : Heap} {rc : ℕ} {oc : Obj}
  {k' k : ℕ} {A : List (Fin k' → ℚ)} {B : List (Fin k → ℚ)} {y : Option Input}
  (hB : Contract base) {n fuel : ℕ} (hf : n ≤ fuel) (hg : GoodHeap h n)
include hB hf hg

/-- **C114 (labels).** The same for the programs which fit a `MapperClustering` with a standard cubical
cover: rows linked by such steps get the same label in `labels_`. -/
theorem C114_labels_partial (ho : ∀ l L, L ∈ base.setOrder l ↔ L ∈ l) {r : ℕ}
    (ha : IsMapperClustering (library base I ρ) h r (.obj rc) .none)
    (hc : h[rc]? = some oc) (hcls : IsCubObject oc true) {m : ℕ} {p : ℝ}
    (hat : CubAttrs I k oc.attrs m p) (hA : A ≠ []) (hk' : 0 < k') (hk : 0 < k)
    (hl : B.length = A.length) (hy : IsLens (y.getD (matrixInput A)) B) {lo hi : Fin k → ℝ}
    (hb : IsBounds (realRows B) lo hi) :
    let run := mapperClusteringFit (library base I ρ) fuel r (matrixInput A) y h
    ∃ l : List ℤ, run.1 = .ok () ∧ attrAt run.2 r "labels_" = some (.labels l) ∧
      l.length = A.length ∧ ∀ i j, i < A.length → j < A.length →
        Linked (RowsRelated (realRows B) (HalfOverlapApart lo hi m p)) i j → l[i]? = l[j]? := by
  obtain ⟨l, cells, h1, h2, h3, h4, h5, h6, h7⟩ := C84_cubical_components I ρ hB hf hg ho ha hc hcls hat
    hA hk' hk hl hy hb
  obtain ⟨_, _, _, _, _, _, hm1, _⟩ := hat
  refine ⟨l, h1, h2, h3, fun i j hi' hj' hl' => (h7 i j hi' hj').mpr ?_⟩
  refine Relation.ReflTransGen.mono ?_ _ _ hl'
  rintro a b ⟨xa, xb, ha', hb', hab⟩
  obtain ⟨cell, hcell⟩ := exists_isCell hb (List.mem_of_getElem? ha') hm1
  refine ⟨_, List.mem_map_of_mem (h5 rfl xa (List.mem_of_getElem? ha') cell hcell), xa, xb, ha', hb',
    inHypercube_near hcell fun i hi' => ?_, inHypercube_near hcell hab⟩
  have := (abs_nonneg _).trans_lt (hab i hi')
  simpa using this

end library

/-- Non-vacuity: rows in the plane, of which the first two differ by 1/5 in both columns, where
adjacent intervals, which have length 1, overlap in a length of 1/2. -/
example : ∃ out, mapperConnectedComponents id [7, 8, 9] [pt2 0 0, pt2 (1 / 5) (1 / 5), pt2 2 2]
      ((⟨⟨2, some (1 / 3), "flat", 1, none, "disabled"⟩, "standard", none⟩ : CubicalCover 2 ℚ).apply
        (fun _ => 0) fun n => n) (fun _ => trivialClustering) = .ok out ∧ out[0]? = out[1]? := by
  obtain ⟨g, out, h1, h2, _, h3⟩ := C114_standard_partial (m := 2) (fun _ => 0)
    (⟨⟨2, some (1 / 3), "flat", 1, none, "disabled"⟩, "standard", none⟩ : CubicalCover 2 ℚ) (1 / 3)
    ⟨rfl, by norm_num, by norm_num, by decide, Or.inl rfl, le_refl 1⟩ rfl (fun n => n)
    ([7, 8, 9] : List ℕ) [pt2 0 0, pt2 (1 / 5) (1 / 5), pt2 2 2] rfl (by simp) (fun _ => 0) (fun _ => 2)
    (by intro i; fin_cases i <;> simp [pt2] <;> norm_num) id (fun _ _ => Iff.rfl)
  refine ⟨out, h2, h3.component 0 1 (by simp) (by simp) (.single ⟨_, _, rfl, rfl, fun i _ => ?_⟩)⟩
  fin_cases i <;> norm_num [pt2, overlapLength, boxWidth, abs_lt]

/-- Non-vacuity for lenses with one column and the default algorithm: seven rows with steps of 1/3, where
the intervals have length 1, overlap in a length of 1/2, and leave gaps of length 1/2. All
rows are in one component. -/
example : ∃ g out, mapperGraph (column [0, 1 / 3, 2 / 3, 1, 4 / 3, 5 / 3, 2])
      (column [0, 1 / 3, 2 / 3, 1, 4 / 3, 5 / 3, 2])
      ((⟨(cubOf 2 (1 / 3)).params, "proximity", none⟩ : CubicalCover 1 ℚ).apply (fun _ => 0) fun _ => 0)
      (fun _ => trivialClustering) = .ok g ∧
    mapperConnectedComponents id (column [0, 1 / 3, 2 / 3, 1, 4 / 3, 5 / 3, 2])
      (column [0, 1 / 3, 2 / 3, 1, 4 / 3, 5 / 3, 2])
      ((⟨(cubOf 2 (1 / 3)).params, "proximity", none⟩ : CubicalCover 1 ℚ).apply (fun _ => 0) fun _ => 0)
      (fun _ => trivialClustering) = .ok out ∧ (∀ i, i + 1 < 7 → out[i]? = out[i + 1]?) := by
  obtain ⟨g, out, h1, h2, _, h3⟩ := C114_line_partial (fun _ => 0)
    (⟨(cubOf 2 (1 / 3)).params, "proximity", none⟩ : CubicalCover 1 ℚ) (1 / 3)
    (cubOf_ok 2 (1 / 3) (by decide) (by norm_num) (by norm_num)) (Or.inl rfl) (fun _ => 0)
    (column [0, 1 / 3, 2 / 3, 1, 4 / 3, 5 / 3, 2]) (column [0, 1 / 3, 2 / 3, 1, 4 / 3, 5 / 3, 2]) rfl
    (by simp [column]) (fun _ => 0) (fun _ => 2)
    (by intro i; simp [column]; norm_num) id (fun _ _ => Iff.rfl)
  refine ⟨g, out, h1, h2, fun i hi => h3.component i (i + 1) (by simp [column]; omega)
    (by simpa [column] using hi) (.single ?_)⟩
  have hi : i < 6 := by omega
  interval_cases i <;> refine ⟨_, _, rfl, rfl, fun _ => ?_⟩ <;>
    norm_num [overlapLength, gapLength, boxWidth, cubOf, abs_le, abs_lt]

/-- A lens with one column, whose first two values differ by 1/2. -/
def nearLens : List ℚ := [0, 1 / 2, 5]

theorem nearLens_rows : realRows (nearLens.map fun x (_ : Fin 1) => x) =
    [fun _ => 0, fun _ => 1 / 2, fun _ => 5] := by
  simp only [realRows, nearLens, List.map_cons, List.map_nil]
  norm_num

/-- Non-vacuity: a program which fits a `MapperClustering` with two intervals of length 5/2 and the default
overlap of 5/4. -/
example : ∃ l : List ℤ,
    attrAt (mapperClusteringFit libWorld 2 7 (matrixInput libData) (some (vectorInput nearLens))
      libHeap).2 7 "labels_" = some (.labels l) ∧ l[0]? = l[1]? := by
  obtain ⟨l, _, h1, _, h2⟩ :=
    C114_labels_partial noInterp (fun _ => 0) (y := some (vectorInput nearLens)) (A := libData)
      (r := 7) exWorld_contract (le_refl 2) libHeap_good (fun _ _ => Iff.rfl)
      ⟨_, .int 1, rfl, rfl, rfl, rfl, rfl, libHeap_cloneable 1 (by decide), .inl rfl, fun r h => by cases h⟩ rfl
      (.inr ⟨rfl, rfl⟩) (m := 2) (p := defaultOverlap 1)
      ⟨_, "flat", _, _, 1, rfl, by decide, rfl, .inl ⟨rfl, rfl⟩, rfl, .inl rfl, rfl, le_refl 1, rfl,
        .inl rfl, rfl⟩
      (by simp [libData]) (by decide) (by decide) rfl (IsLens.vector nearLens)
      (lo := fun _ => 0) (hi := fun _ => 5)
      (by rw [nearLens_rows]; intro i; simp; norm_num)
  refine ⟨l, h1, h2 0 1 (by decide) (by decide) (.single ?_)⟩
  rw [nearLens_rows]
  refine ⟨_, _, rfl, rfl, fun i _ => ?_⟩
  have e1 : defaultOverlap 1 = 1 / 3 := by unfold defaultOverlap getOverlapFrac; norm_num
  norm_num [overlapLength, boxWidth, e1, abs_lt]

/-! ### Violations -/

/-- The numbers 0 and `4 N`, then the odd numbers between them. -/
def gapRows (N : ℕ) : List ℤ := 0 :: (4 * N : ℤ) :: (List.range (2 * N)).map fun k : ℕ => 2 * (k : ℤ) + 1

theorem gapRows_length (N : ℕ) : (gapRows N).length = 2 * N + 2 := by simp [gapRows]

theorem gapRows_odd {N k : ℕ} (h : k < 2 * N) : (gapRows N)[k + 2]? = some (2 * (k : ℤ) + 1) := by
  simp [gapRows, h]

/-- The rows are linked by steps of length at most 2. -/
theorem gapRows_linked {N : ℕ} (hN : 1 ≤ N) {i j : ℕ} (hi : i < (gapRows N).length)
    (hj : j < (gapRows N).length) :
    Linked (RowsRelated (gapRows N) fun a b => absDist a b ≤ 2) i j := by
  have hsym : ∀ a b, RowsRelated (gapRows N) (fun a b => absDist a b ≤ 2) a b →
      RowsRelated (gapRows N) (fun a b => absDist a b ≤ 2) b a := by
    rintro a b ⟨x, z, h1, h2, h3⟩
    exact ⟨z, x, h2, h1, (absDist_pseudo.symm z x).trans_le h3⟩
  have h0 : ∀ k, k < 2 * N → Linked (RowsRelated (gapRows N) fun a b => absDist a b ≤ 2) 0 (k + 2) := by
    intro k
    induction k with
    | zero =>
      intro h
      exact .single ⟨0, 1, rfl, by rw [gapRows_odd h]; rfl, by decide⟩
    | succ k ih =>
      intro h
      refine .tail (ih (by omega)) ⟨_, _, gapRows_odd (by omega), gapRows_odd h, ?_⟩
      show |2 * (k : ℤ) + 1 - (2 * ((k + 1 : ℕ) : ℤ) + 1)| ≤ 2
      rw [show (2 * (k : ℤ) + 1 - (2 * ((k + 1 : ℕ) : ℤ) + 1)) = -2 by push_cast; ring]
      decide
  have h1 : Linked (RowsRelated (gapRows N) fun a b => absDist a b ≤ 2) 0 1 := by
    refine .tail (h0 (2 * N - 1) (by omega)) ⟨_, _, gapRows_odd (by omega), rfl, ?_⟩
    show |2 * ((2 * N - 1 : ℕ) : ℤ) + 1 - 4 * (N : ℤ)| ≤ 2
    rw [show (2 * ((2 * N - 1 : ℕ) : ℤ) + 1 - 4 * (N : ℤ)) = -1 by
      push_cast [show 1 ≤ 2 * N by omega]; ring]
    decide
  have hall : ∀ k, k < (gapRows N).length →
      Linked (RowsRelated (gapRows N) fun a b => absDist a b ≤ 2) 0 k := by
    intro k hk
    rw [gapRows_length] at hk
    match k, hk with
    | 0, _ => exact .refl
    | 1, _ => exact h1
    | k + 2, hk => exact h0 k (by omega)
  refine Relation.ReflTransGen.trans ?_ (hall j hj)
  have := hall i hi
  clear hi
  induction this with
  | refl => exact .refl
  | tail _ h ih => exact .head (hsym _ _ h) ih

/-- No row is in the middle. -/
theorem gapRows_middle {N j : ℕ} {z : ℤ} (hN : 1 ≤ N) (h : (gapRows N)[j]? = some z) :
    0 ≤ z ∧ z ≤ 4 * N ∧ z ≠ 2 * N := by
  have hj := getElem?_lt h
  rw [gapRows_length] at hj
  match j, hj, h with
  | 0, _, h => cases h; omega
  | 1, _, h => cases h; omega
  | j + 2, hj, h =>
    rw [gapRows_odd (by omega)] at h
    cases h; omega

/-- **C114 (balls, violation).** With `BallCover` no steps are short enough: for every `N` there are rows
all linked by steps of length at most 2 which are in two components although the radius is `2 N`. -/
theorem C114_ball_violation (N : ℕ) (hN : 1 ≤ N) (ρ : ℕ → ℕ) :
    (∀ i j, i < (gapRows N).length → j < (gapRows N).length →
      Linked (RowsRelated (gapRows N) fun a b => absDist a b ≤ 2) i j) ∧
    ∃ out, mapperConnectedComponents id (gapRows N) (gapRows N) ((demoBall (2 * N)).apply ρ)
      (fun _ => trivialClustering) = .ok out ∧ out[0]? ≠ out[1]? := by
  refine ⟨fun i j hi hj => gapRows_linked hN hi hj, ?_⟩
  have H := demoBall_ok (2 * N)
  obtain ⟨c', h1, h2⟩ := ballFit_ok (demoBall (2 * N)) H.metric H.kind H.capacity ρ (gapRows N)
  choose f hf hl using h2 (List.ne_nil_of_length_pos (by rw [gapRows_length]; omega))
  have m0 : ∀ j, j ∈ f 0 ↔ ∃ z, (gapRows N)[j]? = some z ∧ z < 2 * N := by
    intro j
    rw [(hl 0).2 j]
    refine exists_congr fun z => and_congr_right fun hz => ?_
    have := gapRows_middle hN hz
    show |0 - z| < (2 * N : ℤ) ↔ _
    rw [zero_sub, abs_neg, abs_of_nonneg this.1]
  have m1 : ∀ j, j ∈ f (4 * N) ↔ ∃ z, (gapRows N)[j]? = some z ∧ 2 * N < z := by
    intro j
    rw [(hl (4 * N)).2 j]
    refine exists_congr fun z => and_congr_right fun hz => ?_
    have := gapRows_middle hN hz
    show |4 * (N : ℤ) - z| < (2 * N : ℤ) ↔ _
    rw [abs_of_nonneg (by omega)]; omega
  have hall : ∀ i, i < (gapRows N).length → i ∈ f 0 ∨ i ∈ f (4 * N) := by
    intro i hi
    have h3 := List.getElem?_eq_getElem hi
    have := gapRows_middle hN h3
    rw [m0, m1]
    rcases lt_or_gt_of_ne this.2.2 with h | h
    · exact Or.inl ⟨_, h3, h⟩
    · exact Or.inr ⟨_, h3, h⟩
  have a0 : 0 ∈ f 0 := (m0 0).mpr ⟨0, rfl, by omega⟩
  have a1 : 1 ∈ f (4 * N) := (m1 1).mpr ⟨_, rfl, by omega⟩
  have hdis : ∀ i ∈ f 0, i ∉ f (4 * N) := by
    intro i h3 h4
    obtain ⟨z, e, h5⟩ := (m0 i).mp h3
    obtain ⟨z', e', h6⟩ := (m1 i).mp h4
    rw [e] at e'; cases e'; omega
  refine two_components _ _ _ (f 0) (f (4 * N)) ?_ ⟨(hl 0).1, fun i hi => ?_⟩ ⟨(hl _).1, fun i hi => ?_⟩
    hdis hall a0 a1 id (fun _ _ => Iff.rfl)
  · exact two_net ((demoBall (2 * N)).fit ρ) BallCover.search (gapRows N) c' h1
      (fun i => f (((gapRows N)[i]?).getD 0)) (fun i x hx => by rw [hx]; exact hf x)
      (by rw [gapRows_length]; omega) a0 a1 (fun h => hdis 1 h a1) hall
  · obtain ⟨z, e, _⟩ := (m0 i).mp hi; exact getElem?_lt e
  · obtain ⟨z, e, _⟩ := (m1 i).mp hi; exact getElem?_lt e

/-- The same rows as a lens with one column. -/
def gapColumn (N : ℕ) : List (Fin 1 → ℚ) := (gapRows N).map fun (a : ℤ) (_ : Fin 1) => (a : ℚ)

theorem gapColumn_some {N j : ℕ} {x : Fin 1 → ℚ} :
    (gapColumn N)[j]? = some x ↔ ∃ z : ℤ, (gapRows N)[j]? = some z ∧ x = fun _ => (z : ℚ) := by
  rw [gapColumn, List.getElem?_map, Option.map_eq_some_iff]
  exact exists_congr fun z => and_congr_right fun _ => ⟨Eq.symm, Eq.symm⟩

theorem gapColumn_bounds {N : ℕ} (hN : 1 ≤ N) :
    IsBounds (gapColumn N) (fun _ => 0) (fun _ => 4 * (N : ℚ)) := by
  intro i
  refine ⟨⟨fun _ => ((0 : ℤ) : ℚ), List.mem_of_getElem? (gapColumn_some.mpr ⟨0, (rfl : (gapRows N)[0]? = _), rfl⟩), by simp⟩,
    ⟨fun _ => ((4 * N : ℤ) : ℚ), List.mem_of_getElem? (gapColumn_some.mpr ⟨_, (rfl : (gapRows N)[1]? = _), rfl⟩), by simp⟩, ?_⟩
  intro x hx
  obtain ⟨j, hj⟩ := List.mem_iff_getElem?.mp hx
  obtain ⟨z, h1, rfl⟩ := gapColumn_some.mp hj
  have := gapRows_middle hN h1
  have h2 : (0 : ℚ) ≤ z := by exact_mod_cast this.1
  have h3 : (z : ℚ) ≤ 4 * N := by exact_mod_cast this.2.1
  exact ⟨h2, h3⟩

/-- **C114 (proximity hypercubes, violation).** Nor are they with `CubicalCover(algorithm="proximity")`,
the default, if `overlap_frac` is one half: the same rows, with three intervals of length `4 N / 3`
each of which overlaps the next in that length, are in two components for every `N`. -/
theorem C114_proximity_violation (N : ℕ) (hN : 1 ≤ N) (ρ : ℕ → ℕ) :
    (∀ i j, i < (gapColumn N).length → j < (gapColumn N).length →
      Linked (RowsRelated (gapColumn N) fun a b => |a 0 - b 0| ≤ 2) i j) ∧
    overlapLength (fun _ : Fin 1 => (0 : ℚ)) (fun _ => 4 * N) 3 (1 / 2) 0 = 4 * N / 3 ∧
    ∃ out, mapperConnectedComponents id (gapColumn N) (gapColumn N)
      ((⟨(cubOf 3 (1 / 2)).params, "proximity", none⟩ : CubicalCover 1 ℚ).apply (fun _ => 0) ρ)
      (fun _ => trivialClustering) = .ok out ∧ out[0]? ≠ out[1]? := by
  have hlen : (gapColumn N).length = (gapRows N).length := by simp [gapColumn]
  refine ⟨fun i j hi hj => ?_, ?_, ?_⟩
  · refine Relation.ReflTransGen.mono ?_ _ _ (gapRows_linked hN (hlen ▸ hi) (hlen ▸ hj))
    rintro a b ⟨x, z, h1, h2, h3⟩
    refine ⟨_, _, gapColumn_some.mpr ⟨x, h1, rfl⟩, gapColumn_some.mpr ⟨z, h2, rfl⟩, ?_⟩
    have h3 : |x - z| ≤ 2 := h3
    have h4 : |(x : ℚ) - z| ≤ 2 := by exact_mod_cast h3
    exact h4
  · unfold overlapLength boxWidth; push_cast; ring
  have H := cubOf_ok 3 (1 / 2) (by decide) (by norm_num) (by norm_num)
  have hne : gapColumn N ≠ [] :=
    List.ne_nil_of_length_pos (by rw [hlen, gapRows_length]; omega)
  obtain ⟨c', g, b, f, h1, _, hg, hf, _, hl, hself⟩ :=
    cubFitted (fun _ => 0) (cubOf 3 (1 / 2)) ρ (gapColumn N) hne (1 / 2) H
  have hN' : (1 : ℚ) ≤ N := by exact_mod_cast hN
  obtain ⟨hlo, hhi⟩ := hg.bounds.unique (gapColumn_bounds hN)
  have hs : Spread g.lo g.hi 0 := by
    rw [hlo, hhi]; show (1 : ℚ) / 2 ^ 52 < 4 * N - 0
    have : (1 : ℚ) / 2 ^ 52 < 1 := by norm_num
    linarith
  have hcell : ∀ (j : ℕ) (z : ℤ) (k : ℤ), (gapRows N)[j]? = some z →
      InCell (0 : ℚ) (4 * N) 3 z k → g.offset (fun _ => (z : ℚ)) 0 = k := by
    intro j z k hz hk
    have hm := List.mem_of_getElem? (gapColumn_some.mpr ⟨z, hz, rfl⟩)
    have h2 := (isCell_iff hg (by decide : 1 ≤ 3) _ (fun k => (hg.bounds k).2.2 _ hm) (fun _ => k)).mp
      (fun i => by
        rw [Subsingleton.elim i 0]
        refine ⟨fun _ => ?_, fun h => absurd hs h⟩
        rw [hlo, hhi]; exact hk)
    exact (congrFun h2 0).symm
  have hmem : ∀ (j : ℕ) (z : ℤ) (k : ℤ), (gapRows N)[j]? = some z →
      InCell (0 : ℚ) (4 * N) 3 z k → ∀ i, i ∈ f (fun _ => (z : ℚ)) ↔
        ∃ w : ℤ, (gapRows N)[i]? = some w ∧ InBox (0 : ℚ) (4 * N) 3 (1 / 2) k w := by
    intro j z k hz hk i
    have hm := List.mem_of_getElem? (gapColumn_some.mpr ⟨z, hz, rfl⟩)
    rw [(hl _ hm).2 i]
    constructor
    · rintro ⟨x, hx, hin⟩
      obtain ⟨w, hw, rfl⟩ := gapColumn_some.mp hx
      refine ⟨w, hw, ?_⟩
      have := hin 0 hs
      rw [hcell j z k hz hk, hlo, hhi] at this
      exact this
    · rintro ⟨w, hw, hin⟩
      refine ⟨_, gapColumn_some.mpr ⟨w, hw, rfl⟩, fun i _ => ?_⟩
      rw [Subsingleton.elim i 0, hcell j z k hz hk, hlo, hhi]
      exact hin
  have e0 : (gapRows N)[0]? = some 0 := rfl
  have e1 : (gapRows N)[1]? = some (4 * (N : ℤ)) := rfl
  have m0 : ∀ j, j ∈ f (fun _ => ((0 : ℤ) : ℚ)) ↔ ∃ z, (gapRows N)[j]? = some z ∧ z < 2 * N := by
    intro j
    rw [hmem 0 0 0 e0 (by unfold InCell cellLeft cellRight; norm_num; omega)]
    refine exists_congr fun z => and_congr_right fun hz => ?_
    have h3 := gapRows_middle hN hz
    have h4 : (0 : ℚ) ≤ z := by exact_mod_cast h3.1
    unfold InBox cellLeft cellRight boxWidth
    constructor
    · rintro ⟨_, h5⟩
      have : (z : ℚ) < 2 * N := by norm_num at h5; linarith
      exact_mod_cast this
    · intro h5
      have : (z : ℚ) < 2 * N := by exact_mod_cast h5
      constructor
      · norm_num; linarith
      · norm_num; linarith
  have m1 : ∀ j, j ∈ f (fun _ => ((4 * N : ℤ) : ℚ)) ↔ ∃ z, (gapRows N)[j]? = some z ∧ 2 * N < z := by
    intro j
    rw [hmem 1 (4 * N) 2 e1 (by
      refine ⟨by decide, by decide, ?_, Or.inr ⟨by decide, ?_⟩⟩
      · unfold cellLeft; push_cast; linarith
      · unfold cellRight; push_cast; linarith)]
    refine exists_congr fun z => and_congr_right fun hz => ?_
    have h3 := gapRows_middle hN hz
    have h4 : (z : ℚ) ≤ 4 * N := by exact_mod_cast h3.2.1
    unfold InBox cellLeft cellRight boxWidth
    constructor
    · rintro ⟨h5, _⟩
      have : 2 * (N : ℚ) < z := by norm_num at h5; linarith
      exact_mod_cast this
    · intro h5
      have : 2 * (N : ℚ) < z := by exact_mod_cast h5
      constructor
      · norm_num; linarith
      · norm_num; linarith
  have hall : ∀ i, i < (gapColumn N).length →
      i ∈ f (fun _ => ((0 : ℤ) : ℚ)) ∨ i ∈ f (fun _ => ((4 * N : ℤ) : ℚ)) := by
    intro i hi
    rw [hlen] at hi
    have h3 := List.getElem?_eq_getElem hi
    have := gapRows_middle hN h3
    rw [m0, m1]
    rcases lt_or_gt_of_ne this.2.2 with h | h
    · exact Or.inl ⟨_, h3, h⟩
    · exact Or.inr ⟨_, h3, h⟩
  have a0 : 0 ∈ f (fun _ => ((0 : ℤ) : ℚ)) := (m0 0).mpr ⟨0, rfl, by omega⟩
  have a1 : 1 ∈ f (fun _ => ((4 * N : ℤ) : ℚ)) := (m1 1).mpr ⟨_, rfl, by omega⟩
  have hdis : ∀ i ∈ f (fun _ => ((0 : ℤ) : ℚ)), i ∉ f (fun _ => ((4 * N : ℤ) : ℚ)) := by
    intro i h3 h4
    obtain ⟨z, e, h5⟩ := (m0 i).mp h3
    obtain ⟨z', e', h6⟩ := (m1 i).mp h4
    rw [e] at e'; cases e'; omega
  have hin : ∀ x, x ∈ gapColumn N → (f x).Nodup ∧ ∀ i ∈ f x, i < (gapColumn N).length := by
    intro x hx
    refine ⟨(hl x hx).1, fun i hi => ?_⟩
    obtain ⟨z, e, _⟩ := ((hl x hx).2 i).mp hi
    exact getElem?_lt e
  have c0 := gapColumn_some.mpr ⟨0, e0, rfl⟩
  have c1 := gapColumn_some.mpr ⟨_, e1, rfl⟩
  refine two_components _ _ _ _ _ ?_ (hin _ (List.mem_of_getElem? c0)) (hin _ (List.mem_of_getElem? c1))
    hdis hall a0 a1 id (fun _ _ => Iff.rfl)
  exact two_net ((cubOf 3 (1 / 2)).fit (fun _ => 0) ρ) CubCover.search (gapColumn N) c' h1
    (fun i => f (((gapColumn N)[i]?).getD fun _ => 0)) (fun i x hx => by rw [hx]; exact hf x)
    (by rw [hlen, gapRows_length]; omega) a0 a1 (fun h => hdis 1 h a1) hall

/-- **C114 (proximity hypercubes, two columns, violation).** With two columns, it fails for smaller
`overlap_frac`, too: here the last two rows differ by 1/10 in both columns, where half of the overlap is 1/4
(and the gap between intervals 1/2), and are in different components; the standard algorithm keeps
them together. -/
theorem C114_corner_violation :
    let y : List (Fin 2 → ℚ) := [pt2 0 2, pt2 2 0, pt2 (6 / 5) (13 / 10), pt2 (13 / 10) (6 / 5)]
    let ps : CubParams ℚ := ⟨2, some (1 / 3), "flat", 1, none, "disabled"⟩
    HalfOverlapApart (fun _ => 0) (fun _ => 2) 2 (1 / 3) (pt2 (6 / 5) (13 / 10)) (pt2 (13 / 10) (6 / 5)) ∧
    IsBounds y (fun _ => 0) (fun _ => 2) ∧
    mapperConnectedComponents id y y
      ((⟨ps, "proximity", none⟩ : CubicalCover 2 ℚ).apply (fun _ => 0) fun _ => 0)
      (fun _ => trivialClustering) = .ok [0, 1, 0, 1] ∧
    mapperConnectedComponents id y y
      ((⟨ps, "standard", none⟩ : CubicalCover 2 ℚ).apply (fun _ => 0) fun _ => 0)
      (fun _ => trivialClustering) = .ok [0, 0, 0, 0] := by
  refine ⟨?_, ?_, ?_, ?_⟩
  · intro i _
    fin_cases i <;> norm_num [pt2, overlapLength, boxWidth, abs_lt]
  · intro i
    fin_cases i <;> simp [pt2] <;> norm_num
  · decide +kernel
  · decide +kernel

/-- **C114 (neighbours, violation).** With `KNNCover` rows are only joined to their nearest: 1 and 3
differ by no more than `neighbors` and are in different components. -/
theorem C114_knn_violation :
    mapperConnectedComponents id ([0, 1, 3, 4] : List ℤ) [0, 1, 3, 4] ((demoKnn 2).apply fun _ => 0)
      (fun _ => trivialClustering) = .ok [0, 0, 1, 1] := by
  decide +kernel

end Verif

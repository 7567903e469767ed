import Verif.Props.Paths
import Verif.Props.Library
import Verif.Props.Overlap

/-!
# C132: paths, for the estimator

`MapperAlgorithm.fit_transform` with a cubical cover and no clustering, over a lens only one column of
which takes different values, as a one-column lens does.
-/

set_option autoImplicit false
set_option linter.unusedSectionVars false

namespace Verif

/-- The graph of a list of boxes of a grid, if one column only takes different values. -/
theorem paths_of_regions {k n : ℕ} {p : ℝ} (hn : 1 ≤ n) (h0 : 0 < p) (hp : p ≤ 1 / 2)
    {Y : List (Fin k → ℝ)} {lo hi : Fin k → ℝ} {cells : List (Fin k → ℤ)} {g : NxGraph}
    (hnd : cells.Nodup) (hcells : ∀ cell ∈ cells, ∃ x ∈ Y, IsCell lo hi n x cell)
    (hg : IsRegionGraph g Y (cells.map (InHypercube lo hi n p))) {j : Fin k}
    (hj : ∀ i, Spread lo hi i ↔ i = j) :
    ∃ level : ℤ → ℤ, IsPaths g level ∧ ∀ u, g.IsNode u → 0 ≤ level u ∧ level u < n ∧
      ∀ i yi, Y[i]? = some yi → (g.HasRow u i ↔ InBox (lo j) (hi j) n p (level u) (yi j)) := by
  have hsj := (hj j).mpr rfl
  have hlt : p < 1 := by linarith
  have node : ∀ u, g.IsNode u → ∃ q, ∃ _ : q < cells.length, u = q := by
    intro u hu
    obtain ⟨q, hq, rfl⟩ := (hg.node u).mp hu
    exact ⟨q, by simpa using hq, rfl⟩
  have hreg : ∀ q (hq : q < cells.length),
      (cells.map (InHypercube lo hi n p))[q]? = some (InHypercube lo hi n p cells[q]) := by
    intro q hq
    simp [hq]
  let level : ℤ → ℤ := fun u => (cells[u.toNat]?).elim 0 fun cell => cell j
  have hlev : ∀ q (hq : q < cells.length), level q = cells[q] j := by
    intro q hq
    simp only [level, Int.toNat_natCast, List.getElem?_eq_getElem hq, Option.elim_some]
  have hcell : ∀ q (hq : q < cells.length) q' (hq' : q' < cells.length), cells[q] j = cells[q'] j →
      q = q' := by
    intro q hq q' hq' he
    suffices h : cells[q] = cells[q'] from (List.Nodup.getElem_inj_iff hnd).mp h
    obtain ⟨x, _, hx⟩ := hcells _ (List.getElem_mem hq)
    obtain ⟨x', _, hx'⟩ := hcells _ (List.getElem_mem hq')
    funext i
    by_cases hi' : i = j
    · rw [hi']; exact he
    · rw [(hx i).2 fun hc => hi' ((hj i).mp hc), (hx' i).2 fun hc => hi' ((hj i).mp hc)]
  refine ⟨level, ⟨hg.ends, fun u v hu hv he => ?_, fun u v h => ?_⟩, fun u hu => ?_⟩
  · obtain ⟨q, hq, rfl⟩ := node u hu
    obtain ⟨q', hq', rfl⟩ := node v hv
    rw [hlev q hq, hlev q' hq'] at he
    rw [hcell q hq q' hq' he]
  · obtain ⟨hu, hv⟩ := hg.ends u v h
    obtain ⟨q, hq, rfl⟩ := node u hu
    obtain ⟨q', hq', rfl⟩ := node v hv
    obtain ⟨hne, z, _, hz, hz'⟩ := (hg.adj q q' _ _ (hreg q hq) (hreg q' hq')).mp h
    have h9 := cells_near hn hlt hz hz' hsj
    rw [C113_half h0 hp, abs_lt] at h9
    rw [hlev q hq, hlev q' hq']
    have : cells[q] j ≠ cells[q'] j := fun he => hne (hcell q hq q' hq' he)
    omega
  · obtain ⟨q, hq, rfl⟩ := node u hu
    obtain ⟨x, _, hx⟩ := hcells _ (List.getElem_mem hq)
    rw [hlev q hq]
    have := (hx j).1 hsj
    refine ⟨this.1, this.2.1, fun i yi hyi => ?_⟩
    obtain ⟨ids, h1, _, _, h4⟩ := hg.attr q _ (hreg q hq)
    have h5 : g.HasRow q i ↔ InHypercube lo hi n p cells[q] yi := by
      constructor
      · rintro ⟨size, ids', h6, h7⟩
        rw [h1] at h6
        cases h6
        obtain ⟨z, hz, hz'⟩ := (h4.2 i).mp h7
        rw [hyi] at hz; cases hz
        exact hz'
      · exact fun h => ⟨_, _, h1, (h4.2 i).mpr ⟨yi, hyi, h⟩⟩
    refine h5.trans ⟨fun h => h j hsj, fun h i' hi' => ?_⟩
    rw [(hj i').mp hi']
    exact h

/-- The graph of a list of balls around the points of a net on a line. -/
theorem paths_of_net {T : Type} {d : T → T → ℝ} {r : ℝ} (hr : 0 < r) {pos : T → ℝ}
    (hpos : ∀ a b, d a b = |pos a - pos b|) {Y centres : List T} {g : NxGraph} (hnet : IsNet d r Y centres)
    (hg : IsRegionGraph g Y (centres.map (openBall d r))) :
    ∃ level : ℤ → ℤ, ∃ centre : ℤ → ℝ, IsPaths g level ∧
      (∀ u v, g.IsNode u → g.IsNode v → (level u < level v ↔ centre u < centre v)) ∧
      ∀ u, g.IsNode u → (∃ x ∈ Y, centre u = pos x) ∧
        ∀ i yi, Y[i]? = some yi → (g.HasRow u i ↔ |centre u - pos yi| < r) := by
  obtain ⟨hin, hsep, _⟩ := hnet
  have node : ∀ u, g.IsNode u → ∃ q, ∃ _ : q < centres.length, u = q := by
    intro u hu
    obtain ⟨q, hq, rfl⟩ := (hg.node u).mp hu
    exact ⟨q, by simpa using hq, rfl⟩
  have hreg : ∀ q (hq : q < centres.length),
      (centres.map (openBall d r))[q]? = some (openBall d r centres[q]) := by
    intro q hq
    simp [hq]
  let s : Finset ℝ := (centres.map pos).toFinset
  let centre : ℤ → ℝ := fun u => (centres[u.toNat]?).elim 0 pos
  have hcen : ∀ q (hq : q < centres.length), centre q = pos centres[q] := by
    intro q hq
    simp only [centre, Int.toNat_natCast, List.getElem?_eq_getElem hq, Option.elim_some]
  have hmem : ∀ q, q < centres.length → centre q ∈ s := by
    intro q hq
    rw [hcen q hq]
    simp only [s, List.mem_toFinset, List.mem_map]
    exact ⟨_, List.getElem_mem hq, rfl⟩
  have hapart : ∀ q (hq : q < centres.length) q' (hq' : q' < centres.length), q ≠ q' →
      r ≤ |pos centres[q] - pos centres[q']| := by
    intro q hq q' hq' hne
    rcases Nat.lt_or_gt_of_ne hne with h | h
    · rw [← hpos]
      exact List.pairwise_iff_getElem.mp hsep q q' hq hq' h
    · rw [abs_sub_comm, ← hpos]
      exact List.pairwise_iff_getElem.mp hsep q' q hq' hq h
  have hs : ∀ a ∈ s, ∀ b ∈ s, a ≠ b → r ≤ |a - b| := by
    intro a ha b hb hab
    simp only [s, List.mem_toFinset, List.mem_map] at ha hb
    obtain ⟨x, hx, rfl⟩ := ha
    obtain ⟨x', hx', rfl⟩ := hb
    obtain ⟨q, hq, rfl⟩ := List.mem_iff_getElem.mp hx
    obtain ⟨q', hq', rfl⟩ := List.mem_iff_getElem.mp hx'
    exact hapart q hq q' hq' fun h => hab (by subst h; rfl)
  have hone : ∀ q (hq : q < centres.length) q' (hq' : q' < centres.length), centre q = centre q' → q = q' := by
    intro q hq q' hq' he
    by_contra hne
    have := hapart q hq q' hq' hne
    rw [← hcen q hq, ← hcen q' hq', he, sub_self, abs_zero] at this
    exact absurd hr (not_lt.mpr this)
  let level : ℤ → ℤ := fun u => ((s.filter (· < centre u)).card : ℤ)
  have hlt : ∀ u v, g.IsNode u → (level u < level v ↔ centre u < centre v) := by
    intro u v hu
    obtain ⟨q, hq, rfl⟩ := node u hu
    simp only [level, Nat.cast_lt]
    constructor
    · intro h
      by_contra hn
      refine absurd h (not_lt.mpr (Finset.card_le_card fun x hx => ?_))
      rw [Finset.mem_filter] at hx ⊢
      exact ⟨hx.1, lt_of_lt_of_le hx.2 (not_lt.mp hn)⟩
    · intro h
      refine Finset.card_lt_card ⟨fun x hx => ?_, fun hsub => ?_⟩
      · rw [Finset.mem_filter] at hx ⊢
        exact ⟨hx.1, hx.2.trans h⟩
      · have := hsub (Finset.mem_filter.mpr ⟨hmem q hq, h⟩)
        exact absurd (Finset.mem_filter.mp this).2 (lt_irrefl _)
  refine ⟨level, centre, ⟨hg.ends, fun u v hu hv he => ?_, fun u v h => ?_⟩, fun u v hu _ => hlt u v hu,
    fun u hu => ?_⟩
  · have hcc : centre u = centre v := by
      rcases lt_trichotomy (centre u) (centre v) with h | h | h
      · have := (hlt u v hu).mpr h; omega
      · exact h
      · have := (hlt v u hv).mpr h; omega
    obtain ⟨q, hq, rfl⟩ := node u hu
    obtain ⟨q', hq', rfl⟩ := node v hv
    rw [hone q hq q' hq' hcc]
  · obtain ⟨hu, hv⟩ := hg.ends u v h
    obtain ⟨q, hq, rfl⟩ := node u hu
    obtain ⟨q', hq', rfl⟩ := node v hv
    obtain ⟨hne, z, _, hz, hz'⟩ := (hg.adj q q' _ _ (hreg q hq) (hreg q' hq')).mp h
    simp only [openBall, hpos] at hz hz'
    rw [← hcen q hq] at hz
    rw [← hcen q' hq'] at hz'
    have d1 := abs_lt.mp hz
    have d2 := abs_lt.mp hz'
    rcases lt_or_gt_of_ne (fun he => hne (hone q hq q' hq' he)) with hl | hl
    · left
      have := next_of_net s hs (hmem q hq) (hmem q' hq') hl (by linarith [d1.1, d1.2, d2.1, d2.2])
      simp only [level, this]
      push_cast
      rfl
    · right
      have := next_of_net s hs (hmem q' hq') (hmem q hq) hl (by linarith [d1.1, d1.2, d2.1, d2.2])
      simp only [level, this]
      push_cast
      rfl
  · obtain ⟨q, hq, rfl⟩ := node u hu
    refine ⟨⟨_, hin _ (List.getElem_mem hq), hcen q hq⟩, fun i yi hyi => ?_⟩
    obtain ⟨ids, h1, _, _, h4⟩ := hg.attr q _ (hreg q hq)
    rw [hcen q hq, ← hpos]
    constructor
    · rintro ⟨size, ids', h6, h7⟩
      rw [h1] at h6
      cases h6
      obtain ⟨z, hz, hz'⟩ := (h4.2 i).mp h7
      rw [hyi] at hz; cases hz
      exact hz'
    · exact fun h => ⟨_, _, h1, (h4.2 i).mpr ⟨yi, hyi, h⟩⟩

section
variable {base : World} (I : Interp) (ρ : ℕ → ℕ) {h : Heap} {rc : ℕ} {oc : Obj}
  {k' k : ℕ} {A : List (Fin k' → ℚ)} {B : List (Fin k → ℚ)} {y : Option Input}
variable (hB : Contract base) {n fuel : ℕ} (hn : 2 ≤ n) (hf : n ≤ fuel) (hg : GoodHeap h n)
include hB hf hg hn

/-- **C132 (estimator).** `MapperAlgorithm(cover).fit_transform(X, y)` with a cubical cover of overlap at
most one half, or the default overlap, and no clustering, over a lens one column of which takes different
values, returns a graph that consists of paths, lined up by the numbers of the intervals. The rows of a
node are those in its interval. -/
theorem C132_estimator {r : ℕ} {failsafe : Val}
    (ha : IsAlgorithm (library base I ρ) h r (.obj rc) .none failsafe)
    (hc : h[rc]? = some oc) {std : Bool} (hcls : IsCubObject oc std) {m : ℕ} {p : ℝ}
    (hat : CubAttrs I k oc.attrs m p) (hp : oc.attrs.get? "overlap_frac" = some .none ∨ p ≤ 1 / 2)
    (hA : A ≠ []) (hk' : 0 < k')
    (hl : B.length = A.length) (hy : IsLens (y.getD (matrixInput A)) B) {lo hi : Fin k → ℝ}
    (hb : IsBounds (realRows B) lo hi) {j : Fin k} (hj : ∀ i, Spread lo hi i ↔ i = j) :
    ∃ g level,
      (mapperFitTransform (library base I ρ) fuel r (matrixInput A) y h).1 = .ok (.graph g) ∧
      IsPaths g level ∧ ∀ u, g.IsNode u → 0 ≤ level u ∧ level u < m ∧
        ∀ i yi, (realRows B)[i]? = some yi →
          (g.HasRow u i ↔ InBox (lo j) (hi j) m p (level u) (yi j)) := by
  have hk : 0 < k := lt_of_le_of_lt (Nat.zero_le _) j.isLt
  obtain ⟨g, cells, h1, h2, h3, _, _, h6⟩ := C84_cubical I ρ hB hn hf hg ha hc hcls hat hA hk' hk hl hy hb
  have hpp : 1 ≤ m ∧ 0 < p ∧ p ≤ 1 / 2 := by
    obtain ⟨overlap, _, _, _, _, _, q1, q2, q3, _⟩ := hat
    refine ⟨q1, ?_⟩
    have hd := C26_default_range (m := k) hk
    obtain ⟨_, rfl⟩ | ⟨q4, q5, _⟩ := q3
    · exact ⟨hd.1, by linarith [hd.2]⟩
    · obtain hp | hp := hp
      · rw [q2] at hp
        cases hp
        cases q4
      · exact ⟨q5, hp⟩
  obtain ⟨level, h7, h8⟩ := paths_of_regions hpp.1 hpp.2.1 hpp.2.2 h2 h3 h6 hj
  exact ⟨g, level, h1, h7, h8⟩

/-- **C132 (estimator, balls).** `MapperAlgorithm(BallCover(...)).fit_transform(X, y)` without a clustering,
where the distances of the lens are those of positions on a line, returns a graph that consists of paths,
lined up by the centres of the nodes, which are rows of the lens. The rows of a node are those nearer than
the radius to its centre. -/
theorem C132_estimator_ball {r : ℕ} {failsafe : Val}
    (ha : IsAlgorithm (library base I ρ) h r (.obj rc) .none failsafe)
    (hc : h[rc]? = some oc) (hcls : oc.cls = "BallCover")
    {d : RVec k → RVec k → ℝ} {rad : ℝ} (hat : BallAttrs I oc.attrs d rad) (hd : PseudoMetric d)
    (hrad : 0 < rad) {pos : RVec k → ℝ} (hpos : ∀ a b, d a b = |pos a - pos b|)
    (hA : A ≠ []) (hk' : 0 < k') (hk : 0 < k) (hl : B.length = A.length)
    (hy : y.getD (matrixInput A) = matrixInput B) :
    ∃ g level, ∃ centre : ℤ → ℝ,
      (mapperFitTransform (library base I ρ) fuel r (matrixInput A) y h).1 = .ok (.graph g) ∧
      IsPaths g level ∧
      (∀ u v, g.IsNode u → g.IsNode v → (level u < level v ↔ centre u < centre v)) ∧
      ∀ u, g.IsNode u → (∃ x ∈ realRows B, centre u = pos x) ∧
        ∀ i yi, (realRows B)[i]? = some yi → (g.HasRow u i ↔ |centre u - pos yi| < rad) := by
  obtain ⟨g, centres, h1, h2, h3⟩ := C84_ball I ρ hB hn hf hg ha hc hcls hat hd hrad hA hk' hk hl hy
  obtain ⟨level, centre, h4⟩ := paths_of_net hrad hpos h2 h3
  exact ⟨g, level, centre, h1, h4⟩

end

/-- Three rows under the lens `[0, 1, 5]`, two intervals and the default overlap. -/
example : ∃ g level,
    (mapperFitTransform libWorld 2 4 (matrixInput libData) (some (vectorInput libLens)) libHeap).1 =
      .ok (.graph g) ∧ IsPaths g level := by
  obtain ⟨g, level, h1, h2, _⟩ :=
    C132_estimator noInterp (fun _ => 0) (y := some (vectorInput libLens)) (A := libData) (r := 4)
      exWorld_contract (le_refl 2) (le_refl 2) libHeap_good
      ⟨_, .bool true, .int 1, rfl, rfl, rfl, rfl, rfl, rfl, rfl, (fun _ h => by cases h),
        libHeap_cloneable 1 (by decide), .inl rfl, fun r h => by cases h⟩ rfl
      (std := true) (.inr ⟨rfl, rfl⟩) (m := 2) (p := defaultOverlap 1)
      ⟨_, "flat", _, _, 1, rfl, by decide, rfl, .inl ⟨rfl, rfl⟩, rfl, .inl rfl, rfl, le_refl 1, rfl,
        .inl rfl, rfl⟩ (.inl rfl)
      (by simp [libData]) (by decide) rfl (IsLens.vector libLens) libLens_bounds (j := 0)
      (fun i => ⟨fun _ => Subsingleton.elim _ _, fun _ => by
        obtain rfl : i = 0 := Subsingleton.elim _ _
        simp only [Spread, Matrix.cons_val_zero]; norm_num⟩)
  exact ⟨g, level, h1, h2⟩

/-- The array `[[0], [1], [5]]` as the lens, balls of radius 2 and the default metric. -/
example : ∃ g level,
    (mapperFitTransform libWorld 2 3 (matrixInput libData)
      (some (matrixInput (libLens.map fun x (_ : Fin 1) => x))) libHeap).1 = .ok (.graph g) ∧
    IsPaths g level := by
  obtain ⟨g, level, _, h1, h2, _⟩ :=
    C132_estimator_ball noInterp (fun _ => 0)
      (y := some (matrixInput (libLens.map fun x (_ : Fin 1) => x))) (A := libData) (r := 3)
      (B := libLens.map fun x (_ : Fin 1) => x)
      exWorld_contract (le_refl 2) (le_refl 2) libHeap_good
      ⟨_, .bool true, .int 1, rfl, rfl, rfl, rfl, rfl, rfl, rfl, (fun _ h => by cases h),
        libHeap_cloneable 0 (by decide), .inl rfl, fun r h => by cases h⟩ rfl rfl
      ⟨_, _, _, "flat", _, _, 1, rfl, rfl, euclidean_param _ _, rfl, by exact_mod_cast IsNum.int 2, rfl,
        .inl rfl, rfl, le_refl 1, rfl, .inl rfl, rfl⟩
      C47_euclidean.2.pseudo (by norm_num) (pos := fun x => x 0)
      (fun a b => by simp [Real.sqrt_sq_eq_abs])
      (by simp [libData]) (by decide) (by decide) rfl rfl
  exact ⟨g, level, h1, h2⟩

end Verif

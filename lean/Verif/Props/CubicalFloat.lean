import Verif.Proof.CubicalFloat
import Verif.Proof.Binary

/-!
# C82: the cubical covers with floating-point numbers

`MachineLaws`, `columnWidth`, `gridCoordinate` and `ErrorBound` are in `Verif.Spec.CubicalFloat`.
-/

set_option autoImplicit false

namespace Verif

section
variable {R K : Type} [Machine R] [Field K] [LinearOrder K] [IsStrictOrderedRing K] {m : ℕ}
  {val : R → K} {w : K} {maxInt : ℤ}

/-- **C82 (search).** With rounded arithmetic of relative error `w`, a search at a row `x`
answers with the box around a cell in which `x` lies, up to errors proportional to
`E`: every row whose exact coordinates are in the box by a margin is found, and only rows within
a margin of the box. The half width of the box is `1 / (2 - 2 p)` up to rounding. -/
theorem C82_search (hv : MachineLaws val w maxInt) (dflt : ℕ → R) (c : CubCover m R)
    (ρ : ℕ → ℕ) (X : List (Fin m → R)) (hX : X ≠ []) (hm : 0 < m) (p : R)
    (H : FloatCubOK val maxInt dflt m c.params p) (hp : 8 * w ≤ 1 - val p) (lo hi : Fin m → R)
    (hb : IsBounds X lo hi) (E : K) (hE : ErrorBound val w c.params.nIntervals lo hi E) :
    let coord := fun (z : Fin m → R) i =>
      gridCoordinate val c.params.nIntervals (lo i) (columnWidth c.params.nIntervals (lo i) (hi i)) (z i)
    ∃ (f : CubCover m R) (radius : K), c.machFit dflt ρ X = .ok f ∧
      |radius * (2 - 2 * val p) - 1| ≤ 4 * w / (1 - val p) ∧
      ∀ x ∈ X, ∃ (cell : Fin m → ℤ) (out : List ℕ), f.machSearch x = .ok out ∧ out.Nodup ∧
        (∀ i, 0 ≤ cell i ∧ cell i < c.params.nIntervals ∧
          cell i - 6 * E ≤ coord x i ∧ coord x i ≤ cell i + 1 + 12 * E) ∧
        (∀ j ∈ out, ∃ z, X[j]? = some z ∧
          ∀ i, |coord z i - (cell i + 1 / 2)| < radius + 19 * E) ∧
        ∀ (j : ℕ) z, X[j]? = some z →
          (∀ i, |coord z i - (cell i + 1 / 2)| + 21 * E < radius) → j ∈ out := by
  intro coord
  obtain ⟨radius, hr, hrad⟩ := machRadius_err hv p H.pos hp H.lt_one
  obtain ⟨g, b, h1, hg, -, h3⟩ := machFit_ok hv dflt c ρ X hX hm p radius H.overlap H.pos hr
    H.intervals H.representable H.kind H.capacity
  obtain ⟨rfl, rfl⟩ := hg.bounds.unique hb
  obtain ⟨hE0, h4⟩ := h3 E hE
  have rows := fun z hz => machGrid_rows hv hg H.intervals H.representable hE (x := z) hz
  have hco : ∀ z ∈ X, ∀ i, |val (g.machGamma z i) - coord z i| ≤ 6 * E :=
    fun z hz i => (rows z hz i).2.2.2.2.1
  refine ⟨_, val radius, h1, hrad, fun x hx => ?_⟩
  obtain ⟨out, e1, e2, e3, e4⟩ := h4 x hx
  refine ⟨g.machOffset x, out, e1, e2, fun i => ?_, fun j hj => ?_, fun j z hz hin => ?_⟩
  · obtain ⟨_, _, _, _, _, o0, o1, o2, o3, _⟩ := rows x hx i
    have := abs_le.mp (hco x hx i)
    exact ⟨o0, o1, by linarith, by linarith⟩
  · obtain ⟨z, hz, h5⟩ := e3 j hj
    refine ⟨z, hz, fun i => ?_⟩
    have h6 := hco z (List.mem_of_getElem? hz) i
    have : coord z i - (g.machOffset x i + 1 / 2) =
        (val (g.machGamma z i) - (g.machOffset x i + 1 / 2)) - (val (g.machGamma z i) - coord z i) := by
      ring
    rw [this]
    have h5 := h5 i
    refine lt_of_le_of_lt (abs_sub _ _) ?_
    linarith
  · refine e4 j z hz fun i => ?_
    have h6 := hco z (List.mem_of_getElem? hz) i
    have : val (g.machGamma z i) - (g.machOffset x i + 1 / 2) =
        (coord z i - (g.machOffset x i + 1 / 2)) + (val (g.machGamma z i) - coord z i) := by
      ring
    rw [this]
    have := hin i
    have := abs_add_le (coord z i - (g.machOffset x i + 1 / 2)) (val (g.machGamma z i) - coord z i)
    linarith

/-- Searches of rows in the same cell have the same answer. -/
theorem machSearch_cell {c : CubCover m R} {f : CubFit m R} (hf : c.fitted = some f)
    {x y : Fin m → R} (h : List.ofFn (f.grid.machOffset x) = List.ofFn (f.grid.machOffset y)) :
    c.machSearch x = c.machSearch y := by
  unfold CubCover.machSearch
  rw [hf]
  have : f.grid.machPhi x = f.grid.machPhi y := by
    unfold Grid.machPhi
    rw [List.ofFn_injective h]
  simp only [this]

/-- **C82 (covers).** If the overlap fraction exceeds the rounding errors, both cubical covers
yield non-empty charts without repetitions that cover all rows. Missing from the full
statement, which has any overlap fraction between 0 and 1: the bound on the errors; it is needed
(`C82_uncovered`). -/
theorem C82_cover_partial (hv : MachineLaws val w maxInt) (dflt : ℕ → R) (c : CubCover m R)
    (ρ : ℕ → ℕ) (X : List (Fin m → R)) (hX : X ≠ []) (hm : 0 < m) (p : R)
    (H : FloatCubOK val maxInt dflt m c.params p) (hp : val p + w ≤ 1) (lo hi : Fin m → R)
    (hb : IsBounds X lo hi) (E : K) (hE : ErrorBound val w c.params.nIntervals lo hi E)
    (hpE : 48 * E + 6 * w < val p) :
    (∃ out, c.machProximity dflt ρ X = .ok out ∧ WellFormedCharts X.length out ∧ Covers X.length out) ∧
    ∃ out, c.machStandard dflt ρ X = .ok out ∧ WellFormedCharts X.length out ∧ Covers X.length out := by
  have hE0 : 0 ≤ E := by
    refine le_trans ?_ (hE ⟨0, hm⟩)
    have hl : lo ⟨0, hm⟩ ≤ hi ⟨0, hm⟩ := by
      obtain ⟨x, hx⟩ := List.exists_mem_of_ne_nil X hX
      exact ((hb _).2.2 x hx).1.trans ((hb _).2.2 x hx).2
    have := (columnWidth_ok hv H.intervals H.representable hl).1
    have := hv.w_nonneg
    positivity
  obtain ⟨radius, hr, hrad⟩ := machRadius_margin hv p hE0 hpE hp H.lt_one
  obtain ⟨g, b, h1, hg, h2, h3⟩ := machFit_ok hv dflt c ρ X hX hm p radius H.overlap H.pos hr
    H.intervals H.representable H.kind H.capacity
  obtain ⟨rfl, rfl⟩ := hg.bounds.unique hb
  obtain ⟨-, h4⟩ := h3 E hE
  choose s hs using h2
  obtain ⟨f, hfdef⟩ : ∃ f : CubCover m R, f = ⟨c.params, some ⟨g, b, decide (Machine.half < p)⟩⟩ := ⟨_, rfl⟩
  rw [← hfdef] at h1
  have hfit : f.fitted = some ⟨g, b, decide (Machine.half < p)⟩ := by rw [hfdef]
  have hsearch : ∀ x, f.machSearch x = .ok (s (g.machPhi x)) := by
    intro x
    rw [hfdef]
    exact hs _
  have good : ∀ x ∈ X, (s (g.machPhi x)).Nodup ∧ (∀ j ∈ s (g.machPhi x), j < X.length) ∧
      ∀ i : ℕ, X[i]? = some x → i ∈ s (g.machPhi x) := by
    intro x hx
    obtain ⟨out, e1, e2, e3, e4⟩ := h4 x hx
    rw [hs] at e1
    cases e1
    refine ⟨e2, ?_, ?_⟩
    · intro j hj
      obtain ⟨z, hz, _⟩ := e3 j hj
      exact (List.getElem?_eq_some_iff.mp hz).1
    · intro i hi
      refine e4 i x hi fun k => ?_
      obtain ⟨_, _, _, _, _, _, _, o2, o3, _⟩ := machGrid_rows hv hg H.intervals H.representable hE hx k
      have : |val (g.machGamma x k) - (g.machOffset x k + 1 / 2)| ≤ 1 / 2 + 6 * E := by
        rw [abs_le]
        constructor <;> linarith
      linarith
  constructor
  · obtain ⟨out, e, hcov, hsub, _⟩ := C29_proximity_net_covers (c.machFit dflt ρ)
      CubCover.machSearch X f h1 (fun i => s (g.machPhi (X[i]?.getD (fun _ => 0))))
      (fun i x hi => by rw [hsearch, hi]; rfl)
      (fun i hi => by
        obtain ⟨x, hx⟩ : ∃ x, X[i]? = some x := ⟨_, List.getElem?_eq_getElem hi⟩
        simp only [hx]
        exact (good x (List.mem_of_getElem? hx)).2.2 i hx)
    refine ⟨out, e, ?_, hcov⟩
    intro chart hc
    obtain ⟨i, hi, rfl⟩ := hsub chart hc
    obtain ⟨x, hx⟩ : ∃ x, X[i]? = some x := ⟨_, List.getElem?_eq_getElem hi⟩
    simp only [hx]
    obtain ⟨g1, g2, g3⟩ := good x (List.mem_of_getElem? hx)
    exact ⟨List.ne_nil_of_mem (g3 i hx), g1, g2⟩
  · obtain ⟨lm, e1, hit, _, hkeys⟩ := machLandmarks_ok f _ hfit X X PyDict.empty (fun _ h => h)
      (by simp [PyDict.empty])
    have e2 := machStandardLoop_ok f (fun x => s (g.machPhi x)) hsearch lm.items
      (lm.items.length + 1) (by omega)
    refine ⟨_, by unfold CubCover.machStandard; simp only [h1, ok_bind, e1]; exact e2, ?_, ?_⟩
    · intro chart hc
      rw [List.mem_filter] at hc
      obtain ⟨hc, hne⟩ := hc
      obtain ⟨e, he, rfl⟩ := List.mem_map.mp hc
      obtain ⟨g1, g2, _⟩ := good e.2 (hit e (List.mem_reverse.mp he)).2
      exact ⟨by simpa using hne, g1, g2⟩
    · intro i hi
      obtain ⟨x, hx⟩ : ∃ x, X[i]? = some x := ⟨_, List.getElem?_eq_getElem hi⟩
      have hxX := List.mem_of_getElem? hx
      have hk := hkeys x hxX
      rw [PyDict.keys, List.mem_map] at hk
      obtain ⟨e, he, hek⟩ := hk
      have hse : s (g.machPhi e.2) = s (g.machPhi x) := by
        have := machSearch_cell hfit (x := e.2) (y := x) (by rw [← (hit e he).1, hek])
        rw [hsearch, hsearch] at this
        exact Except.ok.inj this
      have hmem : i ∈ s (g.machPhi e.2) := by rw [hse]; exact (good x hxX).2.2 i hx
      refine ⟨s (g.machPhi e.2), List.mem_filter.mpr ⟨List.mem_map.mpr
        ⟨e, List.mem_reverse.mpr he, rfl⟩, ?_⟩, hmem⟩
      simpa using List.ne_nil_of_mem hmem

end

/-- **C82 (exact).** With exact operations the covers compute what the model with exact numbers
computes. -/
theorem C82_exact {R : Type} [Field R] [LinearOrder R] [IsStrictOrderedRing R] [FloorRing R] {m : ℕ}
    (dflt : ℕ → R) (c : CubCover m R) (ρ : ℕ → ℕ) (X : List (Fin m → R)) :
    @CubCover.machProximity R (exactMachine R) m dflt c ρ X = c.applyProximity dflt ρ X ∧
    @CubCover.machStandard R (exactMachine R) m dflt c ρ X = c.applyStandard dflt ρ X :=
  ⟨exact_proximity dflt c ρ X, exact_standard dflt c ρ X⟩

/-- Rows with one column of double precision numbers. -/
def doubles (l : List ℚ) : List (Fin 1 → Bin 52) := l.map fun q _ => Bin.of 52 q

/-- A cover of two intervals with overlap fraction `1/4`. -/
def quarterCover : CubCover 1 (Bin 52) :=
  ⟨⟨2, some (Bin.of 52 (1 / 4)), "flat", 1, none, "disabled"⟩, none⟩

/-- **C82 (negation of the full statement).** Three rows `2^53`, `2^53 + 2` and `2^53 + 4` in
double precision, two intervals and overlap fraction `1/4`: the computed centre of the
second interval is `2^53 + 4` instead of `2^53 + 3`, and the second row is in no chart of either
cover. -/
theorem C82_uncovered : ∃ (c : CubCover 1 (Bin 52)) (X : List (Fin 1 → Bin 52)) (p : Bin 52)
    (dflt : ℕ → Bin 52) (ρ : ℕ → ℕ) (out out' : List (List ℕ)),
    FloatCubOK (fun x : Bin 52 => x.1) (2 ^ 53) dflt 1 c.params p ∧
    c.machProximity dflt ρ X = .ok out ∧ ¬ Covers X.length out ∧
    c.machStandard dflt ρ X = .ok out' ∧ ¬ Covers X.length out' := by
  refine ⟨quarterCover, doubles [2 ^ 53, 2 ^ 53 + 2, 2 ^ 53 + 4], Bin.of 52 (1 / 4),
    fun _ => Bin.of 52 (1 / 3), fun n => n, [[0], [2]], [[2], [0]],
    ⟨rfl, by decide +kernel, by decide +kernel, by decide, by decide, Or.inl rfl, by decide⟩,
    by decide +kernel, ?_, by decide +kernel, ?_⟩
  · intro h
    obtain ⟨chart, hc, hi⟩ := h 1 (by decide)
    simp only [List.mem_cons, List.not_mem_nil, or_false] at hc
    rcases hc with rfl | rfl <;> simp at hi
  · intro h
    obtain ⟨chart, hc, hi⟩ := h 1 (by decide)
    simp only [List.mem_cons, List.not_mem_nil, or_false] at hc
    rcases hc with rfl | rfl <;> simp at hi

/-- Non-vacuity: double precision satisfies the laws, and the rows `0.1`, `0.2`, `0.5`, `0.9`
(which are rounded) with the same cover satisfy the bounds with `E = 2⁻⁴⁰`. -/
example : MachineLaws (fun x : Bin 52 => x.1) (1 / 2 ^ (52 + 1)) (2 ^ (52 + 1)) ∧
    FloatCubOK (fun x : Bin 52 => x.1) (2 ^ (52 + 1)) (fun _ => Bin.of 52 (1 / 3)) 1
      quarterCover.params (Bin.of 52 (1 / 4)) ∧
    (Bin.of 52 (1 / 4)).1 + 1 / 2 ^ (52 + 1) ≤ 1 ∧ 8 * (1 / 2 ^ (52 + 1)) ≤ 1 - (Bin.of 52 (1 / 4)).1 ∧
    IsBounds (doubles [1 / 10, 1 / 5, 1 / 2, 9 / 10]) (fun _ => Bin.of 52 (1 / 10))
      (fun _ => Bin.of 52 (9 / 10)) ∧
    ErrorBound (fun x : Bin 52 => x.1) (1 / 2 ^ (52 + 1)) 2 (fun _ : Fin 1 => Bin.of 52 (1 / 10))
      (fun _ => Bin.of 52 (9 / 10)) (1 / 2 ^ 40) ∧
    48 * (1 / 2 ^ 40) + 6 * (1 / 2 ^ (52 + 1)) < (Bin.of 52 (1 / 4)).1 ∧
    quarterCover.machProximity (fun _ => Bin.of 52 (1 / 3)) (fun n => n)
      (doubles [1 / 10, 1 / 5, 1 / 2, 9 / 10]) = .ok [[0, 1, 2], [2, 3]] := by
  refine ⟨bin_laws 52 (by norm_num), ⟨rfl, by decide +kernel, by decide +kernel, by decide, by decide,
    Or.inl rfl, by decide⟩, by decide +kernel, by decide +kernel, ?_, ?_, by decide +kernel,
    by decide +kernel⟩
  · intro i
    refine ⟨⟨_, List.mem_map.mpr ⟨1 / 10, by simp, rfl⟩, rfl⟩,
      ⟨_, List.mem_map.mpr ⟨9 / 10, by simp, rfl⟩, rfl⟩, ?_⟩
    intro x hx
    obtain ⟨q, hq, rfl⟩ := List.mem_map.mp hx
    simp only [List.mem_cons, List.not_mem_nil, or_false] at hq
    rcases hq with rfl | rfl | rfl | rfl <;> (revert i; decide +kernel)
  · intro i
    revert i
    unfold columnWidth
    decide +kernel

end Verif

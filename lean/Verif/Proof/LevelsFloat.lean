import Verif.Props.CubicalFloat
import Verif.Proof.Paths

/-!
# Proofs: graphs over the cubical covers with floating-point numbers
-/

set_option autoImplicit false
set_option linter.unusedSectionVars false

namespace Verif

section
variable {R K : Type} [Machine R] [Field K] [LinearOrder K] [IsStrictOrderedRing K] {m : ℕ}
  {val : R → K} {w : K} {maxInt : ℤ}

/-- With overlaps below one half by a margin, boxes are less than two intervals wide, even if the errors
are added. -/
theorem machRadius_le_one (hv : MachineLaws val w maxInt) {p radius : R} {E : K} (hE : 0 ≤ E)
    (hp : 0 < val p) (hpE : val p + 19 * E + 8 * w ≤ 1 / 2) (hr : machRadius p = .ok radius) :
    val radius + 19 * E ≤ 1 := by
  have hw := hv.w_small
  have hw0 := hv.w_nonneg
  obtain ⟨r', h1, h2⟩ := machRadius_err hv p hp (by linarith) (by linarith)
  rw [hr] at h1; cases h1
  have hq : 1 / 2 ≤ 1 - val p := by linarith
  have h3 : 4 * w / (1 - val p) ≤ 8 * w := by
    rw [div_le_iff₀ (by linarith)]
    nlinarith
  have h4 := (abs_le.mp h2).2
  by_contra hn
  push Not at hn
  have h5 : 19 * E ≤ 1 / 2 := by linarith
  have h6 : (1 - 19 * E) * (1 + 38 * E + 16 * w) ≤ val radius * (2 - 2 * val p) :=
    mul_le_mul (by linarith) (by linarith) (by positivity) (by linarith)
  have h7 : 19 * E * (38 * E + 16 * w) ≤ 1 / 2 * (38 * E + 16 * w) :=
    mul_le_mul_of_nonneg_right h5 (by positivity)
  have h8 : (1 - 19 * E) * (2 - 2 * val p) < val radius * (2 - 2 * val p) :=
    mul_lt_mul_of_pos_right (by linarith) (by linarith)
  have h9 : (1 - 19 * E) * (1 + 38 * E + 16 * w) ≤ (1 - 19 * E) * (2 - 2 * val p) :=
    mul_le_mul_of_nonneg_left (by linarith) (by linarith)
  nlinarith

omit [Field K] [LinearOrder K] [IsStrictOrderedRing K] in
theorem machLandmarks_nodup (c : CubCover m R) : ∀ (X : List (Fin m → R))
    (lm lm' : PyDict (List ℤ) (Fin m → R)), lm.keys.Nodup → machLandmarks c lm X = .ok lm' →
    lm'.keys.Nodup := by
  intro X
  induction X with
  | nil => intro lm lm' h e; cases e; exact h
  | cons x xs ih =>
    intro lm lm' h e
    rw [machLandmarks] at e
    split at e
    · cases e
    · simp only at e
      split at e
      · exact ih _ _ h e
      · exact ih _ _ (PyDict.nodup_keys_set h _ _) e

/-- The charts of both cubical covers: one for each of different cells, around which it lies. -/
theorem mach_cells (hv : MachineLaws val w maxInt) (dflt : ℕ → R) (c : CubCover m R)
    (ρ : ℕ → ℕ) (X : List (Fin m → R)) (hX : X ≠ []) (hm : 0 < m) (p : R)
    (H : FloatCubOK val maxInt dflt m c.params p) {lo hi : Fin m → R}
    (hb : IsBounds X lo hi) {E : K} (hE : ErrorBound val w c.params.nIntervals lo hi E)
    (hpE : 48 * E + 6 * w < val p) (hpE' : val p + 19 * E + 8 * w ≤ 1 / 2)
    (cover : CoverFn (Fin m → R)) (hcov : cover = c.machProximity dflt ρ ∨ cover = c.machStandard dflt ρ) :
    ∃ (cells : List (Fin m → ℤ)) (charts : List (List ℕ)), cover X = .ok charts ∧ cells.Nodup ∧
      List.Forall₂ (fun (cell : Fin m → ℤ) (chart : List ℕ) =>
        (∀ i, 0 ≤ cell i ∧ cell i < (c.params.nIntervals : ℤ)) ∧
        chart.Nodup ∧ chart ≠ [] ∧ ∀ j ∈ chart, ∃ z, X[j]? = some z ∧ ∀ i,
          |gridCoordinate val c.params.nIntervals (lo i) (columnWidth c.params.nIntervals (lo i) (hi i)) (z i)
            - (cell i + 1 / 2)| < 1) cells charts := by
  have hw0 := hv.w_nonneg
  have hE0 : 0 ≤ E := by
    refine le_trans ?_ (hE ⟨0, hm⟩)
    have hl : lo ⟨0, hm⟩ ≤ hi ⟨0, hm⟩ := by
      obtain ⟨x, hx⟩ := List.exists_mem_of_ne_nil X hX
      exact ((hb _).2.2 x hx).1.trans ((hb _).2.2 x hx).2
    have := (columnWidth_ok hv H.intervals H.representable hl).1
    positivity
  obtain ⟨radius, hr, hrad⟩ := machRadius_margin hv p hE0 hpE (by linarith) H.lt_one
  have hone := machRadius_le_one hv hE0 H.pos hpE' hr
  obtain ⟨g, b, h1, hg, h2, h3⟩ := machFit_ok hv dflt c ρ X hX hm p radius H.overlap H.pos hr
    H.intervals H.representable H.kind H.capacity
  obtain ⟨rfl, rfl⟩ := hg.bounds.unique hb
  obtain ⟨-, h4⟩ := h3 E hE
  choose s hs using h2
  obtain ⟨f, hfdef⟩ : ∃ f : CubCover m R, f = ⟨c.params, some ⟨g, b, decide (Machine.half < p)⟩⟩ := ⟨_, rfl⟩
  rw [← hfdef] at h1
  have hfit : f.fitted = some ⟨g, b, decide (Machine.half < p)⟩ := by rw [hfdef]
  have hsearch : ∀ x, f.machSearch x = .ok (s (g.machPhi x)) := by
    intro x
    rw [hfdef]
    exact hs _
  have rows := fun z hz => machGrid_rows hv hg H.intervals H.representable hE (x := z) hz
  have self : ∀ x ∈ X, ∀ i : ℕ, X[i]? = some x → i ∈ s (g.machPhi x) := by
    intro x hx i hi
    obtain ⟨out, e1, _, _, e4⟩ := h4 x hx
    rw [hs] at e1
    cases e1
    refine e4 i x hi fun k => ?_
    obtain ⟨_, _, _, _, _, _, _, o2, o3, _⟩ := rows x hx k
    have : |val (g.machGamma x k) - (g.machOffset x k + 1 / 2)| ≤ 1 / 2 + 6 * E := by
      rw [abs_le]
      constructor <;> linarith
    linarith
  have good : ∀ x ∈ X, (∀ i, 0 ≤ g.machOffset x i ∧ g.machOffset x i < c.params.nIntervals) ∧
      (s (g.machPhi x)).Nodup ∧ s (g.machPhi x) ≠ [] ∧ ∀ j ∈ s (g.machPhi x), ∃ z, X[j]? = some z ∧ ∀ i,
        |gridCoordinate val c.params.nIntervals (g.lo i) (columnWidth c.params.nIntervals (g.lo i) (g.hi i)) (z i)
          - (g.machOffset x i + 1 / 2)| < 1 := by
    intro x hx
    obtain ⟨out, e1, e2, e3, e4⟩ := h4 x hx
    rw [hs] at e1
    cases e1
    refine ⟨fun i => ?_, e2, ?_, fun j hj => ?_⟩
    · obtain ⟨_, _, _, _, _, o0, o1, _⟩ := rows x hx i
      exact ⟨o0, o1⟩
    · obtain ⟨i, hi⟩ := List.mem_iff_getElem?.mp hx
      exact List.ne_nil_of_mem (self x hx i hi)
    · obtain ⟨z, hz, h5⟩ := e3 j hj
      refine ⟨z, hz, fun i => ?_⟩
      obtain ⟨_, _, _, _, h6, _⟩ := rows z (List.mem_of_getElem? hz) i
      have a := abs_lt.mp (h5 i)
      have b := abs_le.mp h6
      rw [abs_lt]
      constructor <;> linarith [a.1, a.2, b.1, b.2]
  have same : ∀ x y, g.machOffset x = g.machOffset y → s (g.machPhi x) = s (g.machPhi y) := by
    intro x y h
    have := machSearch_cell hfit (x := x) (y := y) (by simp only [h])
    rw [hsearch, hsearch] at this
    exact Except.ok.inj this
  rcases hcov with rfl | rfl
  · let row : ℕ → Fin m → R := fun i => (X[i]?).getD (fun _ => 0)
    have hrow : ∀ {i x}, X[i]? = some x → row i = x := by
      intro i x h; simp only [row, h, Option.getD_some]
    obtain ⟨out, cs, e, hsort, hcs, ho⟩ := C29_proximity_net (c.machFit dflt ρ)
      CubCover.machSearch X f h1 (fun i => s (g.machPhi (row i)))
      (fun i x hi => by rw [hsearch, hrow hi])
    have hin : ∀ i ∈ cs, X[i]? = some (row i) := by
      intro i hi
      have hx := List.getElem?_eq_getElem ((hcs i).mp hi).1
      rw [hrow hx, hx]
    have ho' : out = cs.map fun i => s (g.machPhi (row i)) := by
      rw [ho, List.filter_eq_self]
      intro l hl
      obtain ⟨i, hi, rfl⟩ := List.mem_map.mp hl
      simpa using (good _ (List.mem_of_getElem? (hin i hi))).2.2.1
    refine ⟨cs.map fun i => g.machOffset (row i), out, e, ?_, ?_⟩
    · refine List.Nodup.map_on (fun i hi j hj he => ?_) (hsort.imp fun h => h.ne)
      have key : ∀ i ∈ cs, ∀ j ∈ cs, g.machOffset (row i) = g.machOffset (row j) → ¬ i < j := by
        intro i hi j hj he hlt
        refine ((hcs j).mp hj).2 i hi hlt ?_
        simp only [same _ _ he]
        exact self _ (List.mem_of_getElem? (hin j hj)) j (hin j hj)
      have := key i hi j hj he
      have := key j hj i hi he.symm
      omega
    · rw [ho', List.forall₂_map_left_iff, List.forall₂_map_right_iff, List.forall₂_same]
      exact fun i hi => good _ (List.mem_of_getElem? (hin i hi))
  · obtain ⟨lm, e1, hit, _, _⟩ := machLandmarks_ok f _ hfit X X PyDict.empty (fun _ h => h)
      (by simp [PyDict.empty])
    have hnd := machLandmarks_nodup f X PyDict.empty lm (by simp [PyDict.empty, PyDict.keys]) e1
    have e2 := machStandardLoop_ok f (fun x => s (g.machPhi x)) hsearch lm.items
      (lm.items.length + 1) (by omega)
    have ho : (lm.items.reverse.map (fun e => s (g.machPhi e.2))).filter (fun l => l ≠ []) =
        lm.items.reverse.map (fun e => s (g.machPhi e.2)) := by
      rw [List.filter_eq_self]
      intro l hl
      obtain ⟨e, he, rfl⟩ := List.mem_map.mp hl
      simpa using (good _ (hit e (List.mem_reverse.mp he)).2).2.2.1
    rw [ho] at e2
    refine ⟨lm.items.reverse.map fun e => g.machOffset e.2, _,
      by unfold CubCover.machStandard; simp only [h1, ok_bind, e1]; exact e2, ?_, ?_⟩
    · apply List.Nodup.of_map (f := List.ofFn)
      have : (lm.items.reverse.map fun e => g.machOffset e.2).map List.ofFn = lm.keys.reverse := by
        rw [List.map_map, PyDict.keys, ← List.map_reverse]
        refine List.map_congr_left fun e he => ?_
        exact (hit e (List.mem_reverse.mp he)).1.symm
      rw [this]
      exact List.nodup_reverse.mpr hnd
    · rw [List.forall₂_map_left_iff, List.forall₂_map_right_iff, List.forall₂_same]
      exact fun e he => good _ (hit e (List.mem_reverse.mp he)).2

/-- Cells around whose middles a number is nearer than one interval are neighbours. -/
theorem cells_next {a : K} {x y : ℤ} (h1 : |a - (x + 1 / 2)| < 1) (h2 : |a - (y + 1 / 2)| < 1) :
    |x - y| ≤ 1 := by
  have a1 := abs_lt.mp h1
  have a2 := abs_lt.mp h2
  have h3 : ((x - y : ℤ) : K) < ((2 : ℤ) : K) := by push_cast; linarith [a1.1, a1.2, a2.1, a2.2]
  have h4 : ((y - x : ℤ) : K) < ((2 : ℤ) : K) := by push_cast; linarith [a1.1, a1.2, a2.1, a2.2]
  have h5 : x - y < 2 := by exact_mod_cast h3
  have h6 : y - x < 2 := by exact_mod_cast h4
  rw [abs_le]
  omega

end

end Verif

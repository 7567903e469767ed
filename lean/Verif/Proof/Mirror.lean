import Verif.Proof.Columns
import Verif.Proof.Metrics
import Verif.Spec.Mirror

/-!
# Cubical covers and distances of mirrored tables
-/

set_option autoImplicit false
set_option linter.unusedSectionVars false

namespace Verif

section cubical
variable {R : Type} [Field R] [LinearOrder R] [IsStrictOrderedRing R] {m : ℕ}

theorem mul_cell {lo hi : R} {n : ℕ} (hn : 1 ≤ n) : (n : R) * ((hi - lo) / n) = hi - lo := by
  have : (n : R) ≠ 0 := by positivity
  field_simp

theorem cellLeft_mirror {lo hi : R} {n : ℕ} (hn : 1 ≤ n) (c : ℤ) :
    cellLeft (-hi) (-lo) n (n - 1 - c) = -cellRight lo hi n c := by
  have h := mul_cell (lo := lo) (hi := hi) hn
  unfold cellLeft cellRight
  rw [show -lo - -hi = hi - lo by ring]
  push_cast
  linear_combination h

theorem cellRight_mirror {lo hi : R} {n : ℕ} (hn : 1 ≤ n) (c : ℤ) :
    cellRight (-hi) (-lo) n (n - 1 - c) = -cellLeft lo hi n c := by
  have h := mul_cell (lo := lo) (hi := hi) hn
  unfold cellLeft cellRight
  rw [show -lo - -hi = hi - lo by ring]
  push_cast
  linear_combination h

theorem boxWidth_mirror {lo hi p : R} (n : ℕ) : boxWidth (-hi) (-lo) n p = boxWidth lo hi n p := by
  unfold boxWidth
  rw [show -lo - -hi = hi - lo by ring]

theorem inBox_mirror {lo hi p z : R} {n : ℕ} (hn : 1 ≤ n) (c : ℤ) :
    InBox (-hi) (-lo) n p (n - 1 - c) (-z) ↔ InBox lo hi n p c z := by
  unfold InBox
  rw [cellLeft_mirror hn, cellRight_mirror hn, boxWidth_mirror]
  constructor <;> rintro ⟨h1, h2⟩ <;> constructor <;> linarith

theorem inCell_mirror {lo hi x : R} {n : ℕ} (hn : 1 ≤ n) {c : ℤ} (h : InCell lo hi n x c)
    (hx : ∀ k : ℤ, 0 < k → k < n → x ≠ cellLeft lo hi n k) :
    InCell (-hi) (-lo) n (-x) (n - 1 - c) := by
  obtain ⟨h0, h1, h2, h3⟩ := h
  refine ⟨by omega, by omega, ?_, ?_⟩
  · rw [cellLeft_mirror hn]
    rcases h3 with h3 | h3
    · linarith
    · linarith [h3.2]
  · rw [cellRight_mirror hn]
    rcases h0.eq_or_lt with h0 | h0
    · exact .inr ⟨by omega, by linarith⟩
    · have := lt_of_le_of_ne h2 (hx c h0 h1).symm
      exact .inl (by linarith)

/-- The bounds of a mirrored table. -/
def mirrorLo (flip : Fin m → Bool) (lo hi : Fin m → R) : Fin m → R :=
  fun i => if flip i then -hi i else lo i

theorem isBounds_mirror {X : List (Fin m → R)} {lo hi : Fin m → R} (flip : Fin m → Bool)
    (hb : IsBounds X lo hi) :
    IsBounds (X.map (mirror flip)) (mirrorLo flip lo hi) (mirrorLo flip hi lo) := by
  intro i
  obtain ⟨⟨x1, h1, e1⟩, ⟨x2, h2, e2⟩, h3⟩ := hb i
  unfold mirrorLo
  cases hf : flip i with
  | true =>
    refine ⟨⟨_, List.mem_map_of_mem h2, by simp [mirror, hf, e2]⟩,
      ⟨_, List.mem_map_of_mem h1, by simp [mirror, hf, e1]⟩, ?_⟩
    intro x hx
    obtain ⟨z, hz, rfl⟩ := List.mem_map.mp hx
    have := h3 z hz
    simpa [mirror, hf] using this.symm
  | false =>
    refine ⟨⟨_, List.mem_map_of_mem h1, by simp [mirror, hf, e1]⟩,
      ⟨_, List.mem_map_of_mem h2, by simp [mirror, hf, e2]⟩, ?_⟩
    intro x hx
    obtain ⟨z, hz, rfl⟩ := List.mem_map.mp hx
    have := h3 z hz
    simpa [mirror, hf] using this

theorem spread_mirror (flip : Fin m → Bool) (lo hi : Fin m → R) (i : Fin m) :
    Spread (mirrorLo flip lo hi) (mirrorLo flip hi lo) i ↔ Spread lo hi i := by
  unfold Spread mirrorLo
  cases flip i
  · exact Iff.rfl
  · simp only [if_true]
    rw [show -lo i - -hi i = hi i - lo i by ring]

open Classical in
/-- The cell of the mirror image. -/
noncomputable def mirrorCell (flip : Fin m → Bool) (lo hi : Fin m → R) (n : ℕ) (c : Fin m → ℤ) :
    Fin m → ℤ :=
  fun i => if flip i = true ∧ Spread lo hi i then n - 1 - c i else c i

theorem mirrorCell_injective (flip : Fin m → Bool) (lo hi : Fin m → R) (n : ℕ) :
    Function.Injective (mirrorCell flip lo hi n) := by
  intro c c' h
  funext i
  have := congrFun h i
  unfold mirrorCell at this
  split at this
  · omega
  · exact this

theorem isCell_mirror {lo hi x : Fin m → R} {n : ℕ} (hn : 1 ≤ n) (flip : Fin m → Bool)
    {c : Fin m → ℤ} (h : IsCell lo hi n x c)
    (hx : ∀ i, flip i = true → Spread lo hi i → ∀ k : ℤ, 0 < k → k < n →
      x i ≠ cellLeft (lo i) (hi i) n k) :
    IsCell (mirrorLo flip lo hi) (mirrorLo flip hi lo) n (mirror flip x)
      (mirrorCell flip lo hi n c) := by
  intro i
  rw [spread_mirror]
  by_cases hs : Spread lo hi i
  · refine ⟨fun _ => ?_, fun h' => absurd hs h'⟩
    have := (h i).1 hs
    unfold mirrorLo mirror mirrorCell
    cases hf : flip i with
    | false => simpa [hf] using this
    | true =>
      simp only [hs, if_true, and_self]
      exact inCell_mirror hn this (hx i hf hs)
  · refine ⟨fun h' => absurd h' hs, fun _ => ?_⟩
    unfold mirrorCell
    rw [if_neg fun h' => hs h'.2]
    exact (h i).2 hs

theorem inHypercube_mirror {lo hi z : Fin m → R} {n : ℕ} (hn : 1 ≤ n) (p : R)
    (flip : Fin m → Bool) (c : Fin m → ℤ) :
    InHypercube (mirrorLo flip lo hi) (mirrorLo flip hi lo) n p (mirrorCell flip lo hi n c)
      (mirror flip z) ↔ InHypercube lo hi n p c z := by
  unfold InHypercube
  refine forall_congr' fun i => ?_
  rw [spread_mirror]
  refine imp_congr_right fun hs => ?_
  unfold mirrorLo mirror mirrorCell
  cases hf : flip i with
  | false => simp
  | true =>
    simp only [hs, if_true, and_self]
    exact inBox_mirror hn _

variable [FloorRing R]

/-- Two fits, on a table and on its mirror image, answer with the same indices at rows. -/
theorem cubFit_mirror (dflt dflt' : ℕ → R) (c c' : CubCover m R) (ρ ρ' : ℕ → ℕ)
    (X : List (Fin m → R)) (hX : X ≠ []) (p : R) (H : CubOK dflt m c.params p)
    (H' : CubOK dflt' m c'.params p) (hn : c.params.nIntervals = c'.params.nIntervals)
    (flip : Fin m → Bool)
    (hoff : ∀ i, flip i = true → FlatColumn X i ∨ OffEnds X c.params.nIntervals i) :
    ∃ (d d' : CubCover m R) (fd fd' : CubFit m R) (f f' : (Fin m → R) → List ℕ),
      c.fit dflt ρ X = .ok d ∧ c'.fit dflt' ρ' (X.map (mirror flip)) = .ok d' ∧
      d.fitted = some fd ∧ d'.fitted = some fd' ∧
      (∀ x ∈ X, ∀ z ∈ X, fd.grid.offset x = fd.grid.offset z ↔
        fd'.grid.offset (mirror flip x) = fd'.grid.offset (mirror flip z)) ∧
      (∀ x, d.search x = .ok (f x)) ∧ (∀ x, d'.search x = .ok (f' x)) ∧
      (∀ x ∈ X, (f x).Perm (f' (mirror flip x))) := by
  obtain ⟨d, g, bc, f, h1, hd, hg, hf, _, hl, _⟩ := cubFitted dflt c ρ X hX p H
  obtain ⟨d', g', bc', f', h1', hd', hg', hf', _, hl', _⟩ :=
    cubFitted dflt' c' ρ' (X.map (mirror flip)) (by simpa using hX) p H'
  have hb := hg.bounds
  obtain ⟨e1', e2'⟩ := hg'.bounds.unique (isBounds_mirror flip hb)
  have hcell : ∀ x ∈ X, g'.offset (mirror flip x) =
      mirrorCell flip g.lo g.hi c.params.nIntervals (g.offset x) := by
    intro x hx
    symm
    rw [← isCell_iff hg' H'.intervals _ (fun i => (hg'.bounds i).2.2 _ (List.mem_map_of_mem hx)),
      e1', e2', ← hn]
    refine isCell_mirror H.intervals flip
      ((isCell_iff hg H.intervals x (fun i => (hb i).2.2 x hx) _).mpr rfl) ?_
    intro i hfi hs k h0 hk
    rcases hoff i hfi with h | h
    · exact absurd h ((spread_iff_not_flat hb i).mp hs)
    · obtain ⟨⟨x1, hx1, e1⟩, ⟨x2, hx2, e2⟩, h3⟩ := hb i
      lift k to ℕ using h0.le
      have := h x1 hx1 x2 hx2 (by rw [e1, e2]; exact h3) x hx k (by omega) (by omega)
      rw [e1, e2] at this
      unfold cellLeft
      push_cast
      exact this
  refine ⟨d, d', ⟨g, bc, decide (1 / 2 < p)⟩, ⟨g', bc', decide (1 / 2 < p)⟩, f, f', h1, h1',
    by rw [hd], by rw [hd'], ?_, hf, hf', ?_⟩
  · intro x hx z hz
    simp only [hcell x hx, hcell z hz]
    exact (mirrorCell_injective flip g.lo g.hi _).eq_iff.symm
  · intro x hx
    refine (hl x hx).perm_pair (hl' _ (List.mem_map_of_mem hx)) (by simp) ?_
    intro j z z' hz hz'
    rw [List.getElem?_map, hz] at hz'
    simp only [Option.map_some, Option.some.injEq] at hz'
    subst hz'
    rw [hcell x hx, e1', e2', ← hn]
    exact (inHypercube_mirror H.intervals p flip _).symm

theorem applyProximity_mirror (dflt dflt' : ℕ → R) (c c' : CubCover m R) (ρ ρ' : ℕ → ℕ)
    (X : List (Fin m → R)) (hX : X ≠ []) (p : R) (H : CubOK dflt m c.params p)
    (H' : CubOK dflt' m c'.params p) (hn : c.params.nIntervals = c'.params.nIntervals)
    (flip : Fin m → Bool)
    (hoff : ∀ i, flip i = true → FlatColumn X i ∨ OffEnds X c.params.nIntervals i) :
    ∃ out out', c.applyProximity dflt ρ X = .ok out ∧
      c'.applyProximity dflt' ρ' (X.map (mirror flip)) = .ok out' ∧ SameCharts out out' := by
  obtain ⟨d, d', _, _, f, f', h1, h1', _, _, _, hf, hf', hp⟩ :=
    cubFit_mirror dflt dflt' c c' ρ ρ' X hX p H H' hn flip hoff
  refine proximityNet_pair h1 h1' (by simp) fun i x x' hx hx' => ?_
  rw [List.getElem?_map, hx] at hx'
  simp only [Option.map_some, Option.some.injEq] at hx'
  subst hx'
  exact ⟨_, _, hf x, hf' _, hp x (List.mem_of_getElem? hx)⟩

theorem applyStandard_mirror (dflt dflt' : ℕ → R) (c c' : CubCover m R) (ρ ρ' : ℕ → ℕ)
    (X : List (Fin m → R)) (hX : X ≠ []) (p : R) (H : CubOK dflt m c.params p)
    (H' : CubOK dflt' m c'.params p) (hn : c.params.nIntervals = c'.params.nIntervals)
    (flip : Fin m → Bool)
    (hoff : ∀ i, flip i = true → FlatColumn X i ∨ OffEnds X c.params.nIntervals i) :
    ∃ out out', c.applyStandard dflt ρ X = .ok out ∧
      c'.applyStandard dflt' ρ' (X.map (mirror flip)) = .ok out' ∧ SameCharts out out' := by
  obtain ⟨d, d', fd, fd', f, f', h1, h1', hd, hd', hk, hf, hf', hp⟩ :=
    cubFit_mirror dflt dflt' c c' ρ ρ' X hX p H H' hn flip hoff
  let P : (Fin m → R) → (Fin m → R) → Prop := fun x x' => x ∈ X ∧ x' = mirror flip x
  obtain ⟨lm, lm', e1, e1', hlm⟩ := landmarksLoop_pair d d' fd fd' hd hd' P
    (fun x z x' z' ⟨a, b⟩ ⟨a', b'⟩ => by rw [b, b']; exact hk x a z a') X (X.map (mirror flip))
    (forall₂_of_rows (by simp) fun i x x' hx hx' => by
      rw [List.getElem?_map, hx] at hx'
      exact ⟨List.mem_of_getElem? hx, (Option.some.inj hx').symm⟩) PyDict.empty PyDict.empty .nil
  have e2 := standardLoop_ok d f hf lm.items (lm.items.length + 1) (by omega)
  have e2' := standardLoop_ok d' f' hf' lm'.items (lm'.items.length + 1) (by omega)
  refine ⟨(lm.items.reverse.map (fun e => f e.2)).filter (fun l => l ≠ []),
    (lm'.items.reverse.map (fun e => f' e.2)).filter (fun l => l ≠ []), ?_, ?_, ?_⟩
  · unfold CubCover.applyStandard
    simp only [h1, ok_bind, e1]
    exact e2
  · unfold CubCover.applyStandard
    simp only [h1', ok_bind, e1']
    exact e2'
  · have hr := List.rel_reverse hlm
    revert hr
    generalize lm.items.reverse = l
    generalize lm'.items.reverse = l'
    intro hr
    induction hr with
    | nil => exact .nil
    | @cons e e' t t' he _ ih =>
      obtain ⟨hx, hx'⟩ := he
      have hpe := hp _ hx
      rw [← hx'] at hpe
      simp only [List.map_cons, List.filter_cons, decide_eq_true_eq]
      by_cases h0 : f e.2 = []
      · rw [h0] at hpe
        rw [if_neg (by simp [h0]), if_neg (by simp [hpe.nil_eq.symm])]
        exact ih
      · rw [if_pos h0, if_pos (fun h => h0 (by rw [h] at hpe; exact hpe.eq_nil))]
        exact .cons hpe ih

end cubical

section metrics
variable {m : ℕ}

theorem abs_mirror (flip : Fin m → Bool) (v : RVec m) (i : Fin m) : |mirror flip v i| = |v i| := by
  unfold mirror
  split <;> simp

theorem mirror_sub (flip : Fin m → Bool) (x z : RVec m) :
    mirror flip x - mirror flip z = mirror flip (x - z) := by
  funext i
  simp only [Pi.sub_apply, mirror]
  split <;> ring

theorem mirror_mul (flip : Fin m → Bool) (x z : RVec m) (i : Fin m) :
    mirror flip x i * mirror flip z i = x i * z i := by
  unfold mirror
  split <;> ring

theorem npNorm_mirror (flip : Fin m → Bool) (q : POrder) (v : RVec m) :
    npNorm q (mirror flip v) = npNorm q v := by
  have h0 : ∀ i, mirror flip v i = 0 ↔ v i = 0 := by
    intro i
    rw [← abs_eq_zero, abs_mirror, abs_eq_zero]
  unfold npNorm
  cases q <;> simp only [abs_mirror, h0, ne_eq]

theorem npNorm2_mirror (flip : Fin m → Bool) (v : RVec m) :
    npNorm2 (mirror flip v) = npNorm2 v := by
  unfold npNorm2
  simp only [mirror_mul]

theorem npDot_mirror (flip : Fin m → Bool) (x z : RVec m) :
    npDot (mirror flip x) (mirror flip z) = npDot x z := by
  unfold npDot
  simp only [mirror_mul]

end metrics

end Verif

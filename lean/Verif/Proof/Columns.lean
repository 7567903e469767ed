import Verif.Proof.Units
import Verif.Spec.Columns

set_option autoImplicit false
set_option linter.unusedSectionVars false

namespace Verif

section cubical
variable {R : Type} [Field R] [LinearOrder R] [IsStrictOrderedRing R] [FloorRing R] {m m' : ℕ}

omit [FloorRing R] in
theorem spread_iff_not_flat {y : List (Fin m → R)} {lo hi : Fin m → R} (hb : IsBounds y lo hi)
    (i : Fin m) : Spread lo hi i ↔ ¬ FlatColumn y i := by
  obtain ⟨⟨x1, h1, e1⟩, ⟨x2, h2, e2⟩, h3⟩ := hb i
  unfold Spread FlatColumn
  constructor
  · intro h hf
    have := hf x2 h2 x1 h1
    rw [e1, e2] at this
    exact absurd h (not_lt.mpr this)
  · intro h
    by_contra h0
    refine h fun x hx z hz => ?_
    have a := h3 x hx
    have b := h3 z hz
    have := not_lt.mp h0
    linarith [a.2, b.1]

omit [FloorRing R] [IsStrictOrderedRing R] in
theorem SameColumn.bounds {y : List (Fin m → R)} {y' : List (Fin m' → R)} {lo hi : Fin m → R}
    {lo' hi' : Fin m' → R} (hb : IsBounds y lo hi) (hb' : IsBounds y' lo' hi')
    (hlen : y.length = y'.length) {i : Fin m} {j : Fin m'} (h : SameColumn y y' i j) :
    lo i = lo' j ∧ hi i = hi' j := by
  have pair : ∀ x ∈ y, ∃ x' ∈ y', x i = x' j := by
    intro x hx
    obtain ⟨r, hr⟩ := List.getElem?_of_mem hx
    obtain ⟨x', hr'⟩ := lt_getElem? (l := y') (k := r) (by rw [← hlen]; exact getElem?_lt hr)
    exact ⟨x', List.mem_of_getElem? hr', h r x x' hr hr'⟩
  have pair' : ∀ x' ∈ y', ∃ x ∈ y, x i = x' j := by
    intro x' hx
    obtain ⟨r, hr⟩ := List.getElem?_of_mem hx
    obtain ⟨x, hr'⟩ := lt_getElem? (l := y) (k := r) (by rw [hlen]; exact getElem?_lt hr)
    exact ⟨x, List.mem_of_getElem? hr', h r x x' hr' hr⟩
  obtain ⟨⟨a, ha, ea⟩, ⟨b, hb1, eb⟩, h3⟩ := hb i
  obtain ⟨⟨a', ha', ea'⟩, ⟨b', hb1', eb'⟩, h3'⟩ := hb' j
  constructor
  · apply le_antisymm
    · obtain ⟨x, hx, e⟩ := pair' a' ha'
      rw [← ea', ← e]; exact (h3 x hx).1
    · obtain ⟨x', hx', e⟩ := pair a ha
      rw [← ea, e]; exact (h3' x' hx').1
  · apply le_antisymm
    · obtain ⟨x', hx', e⟩ := pair b hb1
      rw [← eb, e]; exact (h3' x' hx').2
    · obtain ⟨x, hx, e⟩ := pair' b' hb1'
      rw [← eb', ← e]; exact (h3 x hx).2

omit [FloorRing R] [IsStrictOrderedRing R] in
theorem SameColumn.flat {y : List (Fin m → R)} {y' : List (Fin m' → R)}
    (hlen : y.length = y'.length) {i : Fin m} {j : Fin m'} (h : SameColumn y y' i j) :
    FlatColumn y i ↔ FlatColumn y' j := by
  constructor
  · intro hf x' hx' z' hz'
    obtain ⟨r, hr⟩ := List.getElem?_of_mem hx'
    obtain ⟨s, hs⟩ := List.getElem?_of_mem hz'
    obtain ⟨x, hx⟩ := lt_getElem? (l := y) (k := r) (by rw [hlen]; exact getElem?_lt hr)
    obtain ⟨z, hz⟩ := lt_getElem? (l := y) (k := s) (by rw [hlen]; exact getElem?_lt hs)
    rw [← h r x x' hx hr, ← h s z z' hz hs]
    exact hf x (List.mem_of_getElem? hx) z (List.mem_of_getElem? hz)
  · intro hf x hx z hz
    obtain ⟨r, hr⟩ := List.getElem?_of_mem hx
    obtain ⟨s, hs⟩ := List.getElem?_of_mem hz
    obtain ⟨x', hx'⟩ := lt_getElem? (l := y') (k := r) (by rw [← hlen]; exact getElem?_lt hr)
    obtain ⟨z', hz'⟩ := lt_getElem? (l := y') (k := s) (by rw [← hlen]; exact getElem?_lt hs)
    rw [h r x x' hr hx', h s z z' hs hz']
    exact hf x' (List.mem_of_getElem? hx') z' (List.mem_of_getElem? hz')

/-- Two fits, on tables with the same columns: the same rows share a cell, and searches at
corresponding rows answer with the same indices. -/
theorem cubFit_columns (dflt dflt' : ℕ → R) (c : CubCover m R) (c' : CubCover m' R) (ρ ρ' : ℕ → ℕ)
    (y : List (Fin m → R)) (y' : List (Fin m' → R)) (hy : y ≠ []) (p : R)
    (H : CubOK dflt m c.params p) (H' : CubOK dflt' m' c'.params p)
    (hn : c.params.nIntervals = c'.params.nIntervals) (hc : SameColumns y y') :
    ∃ (d : CubCover m R) (d' : CubCover m' R) (fd : CubFit m R) (fd' : CubFit m' R)
      (f : (Fin m → R) → List ℕ) (f' : (Fin m' → R) → List ℕ),
      c.fit dflt ρ y = .ok d ∧ c'.fit dflt' ρ' y' = .ok d' ∧
      d.fitted = some fd ∧ d'.fitted = some fd' ∧
      (∀ (r s : ℕ) x z x' z', y[r]? = some x → y[s]? = some z → y'[r]? = some x' →
        y'[s]? = some z' →
        (fd.grid.offset x = fd.grid.offset z ↔ fd'.grid.offset x' = fd'.grid.offset z')) ∧
      (∀ x, d.search x = .ok (f x)) ∧ (∀ x, d'.search x = .ok (f' x)) ∧
      (∀ (r : ℕ) x x', y[r]? = some x → y'[r]? = some x' → (f x).Perm (f' x')) := by
  have hy' : y' ≠ [] := by
    intro h
    have := hc.length
    rw [h] at this
    exact hy (List.length_eq_zero_iff.mp this)
  obtain ⟨d, g, bc, f, h1, hd, hg, hf, _, hl, _⟩ := cubFitted dflt c ρ y hy p H
  obtain ⟨d', g', bc', f', h1', hd', hg', hf', _, hl', _⟩ := cubFitted dflt' c' ρ' y' hy' p H'
  have hcell : ∀ x ∈ y, IsCell g.lo g.hi c.params.nIntervals x (g.offset x) := fun x hx =>
    (isCell_iff hg H.intervals x (fun i => (hg.bounds i).2.2 x hx) _).mpr rfl
  have hcell' : ∀ x ∈ y', IsCell g'.lo g'.hi c.params.nIntervals x (g'.offset x) := fun x hx => by
    rw [hn]; exact (isCell_iff hg' H'.intervals x (fun i => (hg'.bounds i).2.2 x hx) _).mpr rfl
  -- equal columns have equal cell numbers
  have hsp : ∀ i j, SameColumn y y' i j → (Spread g.lo g.hi i ↔ Spread g'.lo g'.hi j) := by
    intro i j h
    rw [spread_iff_not_flat hg.bounds, spread_iff_not_flat hg'.bounds, h.flat hc.length]
  have hoff : ∀ i j, SameColumn y y' i j → ∀ (r : ℕ) x x', y[r]? = some x → y'[r]? = some x' →
      g.offset x i = g'.offset x' j := by
    intro i j hij r x x' hx hx'
    have hxy := List.mem_of_getElem? hx
    have hxy' := List.mem_of_getElem? hx'
    obtain ⟨e1, e2⟩ := hij.bounds hg.bounds hg'.bounds hc.length
    have e3 := hij r x x' hx hx'
    -- put the number of the other column in place of this one
    have key : IsCell g.lo g.hi c.params.nIntervals x
        (Function.update (g.offset x) i (g'.offset x' j)) := by
      intro k
      by_cases hk : k = i
      · subst hk
        rw [Function.update_self]
        refine ⟨fun h => ?_, fun h => ((hcell' x' hxy') j).2 fun h' => h ((hsp k j hij).mpr h')⟩
        have := ((hcell' x' hxy') j).1 ((hsp k j hij).mp h)
        rw [e1, e2, e3]
        exact this
      · rw [Function.update_of_ne hk]
        exact hcell x hxy k
    have := (isCell_iff hg H.intervals x (fun i => (hg.bounds i).2.2 x hxy) _).mp key
    have := congrFun this i
    rw [Function.update_self] at this
    exact this.symm
  refine ⟨d, d', ⟨g, bc, decide (1 / 2 < p)⟩, ⟨g', bc', decide (1 / 2 < p)⟩, f, f', h1, h1',
    by rw [hd], by rw [hd'], ?_, hf, hf', ?_⟩
  · intro r s x z x' z' hx hz hx' hz'
    have m1 := List.mem_of_getElem? hx
    have m2 := List.mem_of_getElem? hz
    have m3 := List.mem_of_getElem? hx'
    have m4 := List.mem_of_getElem? hz'
    constructor
    · intro h
      funext j
      rcases hc.right j with hfl | ⟨i, hij⟩
      · have : ¬ Spread g'.lo g'.hi j := by rw [spread_iff_not_flat hg'.bounds]; simpa using hfl
        show g'.offset x' j = g'.offset z' j
        rw [(hcell' x' m3 j).2 this, (hcell' z' m4 j).2 this]
      · show g'.offset x' j = g'.offset z' j
        rw [← hoff i j hij r x x' hx hx', ← hoff i j hij s z z' hz hz']
        exact congrFun h i
    · intro h
      funext i
      rcases hc.left i with hfl | ⟨j, hij⟩
      · have : ¬ Spread g.lo g.hi i := by rw [spread_iff_not_flat hg.bounds]; simpa using hfl
        show g.offset x i = g.offset z i
        rw [(hcell x m1 i).2 this, (hcell z m2 i).2 this]
      · show g.offset x i = g.offset z i
        rw [hoff i j hij r x x' hx hx', hoff i j hij s z z' hz hz']
        exact congrFun h j
  · intro r x x' hx hx'
    refine (hl x (List.mem_of_getElem? hx)).perm_pair (hl' x' (List.mem_of_getElem? hx'))
      hc.length ?_
    intro s z z' hz hz'
    unfold InHypercube
    constructor
    · intro h j hj
      rcases hc.right j with hfl | ⟨i, hij⟩
      · exact absurd hfl ((spread_iff_not_flat hg'.bounds j).mp hj)
      · obtain ⟨e1, e2⟩ := hij.bounds hg.bounds hg'.bounds hc.length
        have := h i ((hsp i j hij).mpr hj)
        rw [hoff i j hij r x x' hx hx', e1, e2, hij s z z' hz hz', hn] at this
        exact this
    · intro h i hi
      rcases hc.left i with hfl | ⟨j, hij⟩
      · exact absurd hfl ((spread_iff_not_flat hg.bounds i).mp hi)
      · obtain ⟨e1, e2⟩ := hij.bounds hg.bounds hg'.bounds hc.length
        have := h j ((hsp i j hij).mp hi)
        rw [← hoff i j hij r x x' hx hx', ← e1, ← e2, ← hij s z z' hz hz', ← hn] at this
        exact this

theorem applyProximity_columns (dflt dflt' : ℕ → R) (c : CubCover m R) (c' : CubCover m' R)
    (ρ ρ' : ℕ → ℕ) (y : List (Fin m → R)) (y' : List (Fin m' → R)) (hy : y ≠ []) (p : R)
    (H : CubOK dflt m c.params p) (H' : CubOK dflt' m' c'.params p)
    (hn : c.params.nIntervals = c'.params.nIntervals) (hc : SameColumns y y') :
    ∃ out out', c.applyProximity dflt ρ y = .ok out ∧ c'.applyProximity dflt' ρ' y' = .ok out' ∧
      SameCharts out out' := by
  obtain ⟨d, d', _, _, f, f', h1, h1', _, _, _, hf, hf', hp⟩ :=
    cubFit_columns dflt dflt' c c' ρ ρ' y y' hy p H H' hn hc
  exact proximityNet_pair h1 h1' hc.length fun i x x' hx hx' => ⟨_, _, hf x, hf' _, hp i x x' hx hx'⟩

theorem PyDict.items_set_new {κ ν : Type} [DecidableEq κ] {d : PyDict κ ν} {k : κ}
    (h : k ∉ d.keys) (v : ν) : (d.set k v).items = d.items ++ [(k, v)] := by
  show PyDict.setList d.items k v = _
  have h' : k ∉ d.items.map (·.1) := h
  generalize d.items = l at h'
  induction l with
  | nil => rfl
  | cons e t ih =>
    obtain ⟨k', v'⟩ := e
    simp only [List.map_cons, List.mem_cons, not_or] at h'
    rw [PyDict.setList, if_neg (fun e => h'.1 e.symm), ih h'.2]
    rfl

/-- The loops that collect landmarks keep the same rows, if the same rows share a key. -/
theorem landmarksLoop_pair (c : CubCover m R) (c' : CubCover m' R) (f : CubFit m R)
    (f' : CubFit m' R) (hf : c.fitted = some f) (hf' : c'.fitted = some f')
    (P : (Fin m → R) → (Fin m' → R) → Prop)
    (hk : ∀ x z x' z', P x x' → P z z' →
      (f.grid.offset x = f.grid.offset z ↔ f'.grid.offset x' = f'.grid.offset z')) :
    ∀ (X : List (Fin m → R)) (X' : List (Fin m' → R)), List.Forall₂ P X X' →
    ∀ (lm : PyDict (List ℤ) (Fin m → R)) (lm' : PyDict (List ℤ) (Fin m' → R)),
      List.Forall₂ (fun e e' => e.1 = List.ofFn (f.grid.offset e.2) ∧
        e'.1 = List.ofFn (f'.grid.offset e'.2) ∧ P e.2 e'.2) lm.items lm'.items →
      ∃ out out', landmarksLoop c lm X = .ok out ∧ landmarksLoop c' lm' X' = .ok out' ∧
        List.Forall₂ (fun e e' => P e.2 e'.2) out.items out'.items := by
  intro X X' hX
  induction hX with
  | nil => intro lm lm' h; exact ⟨lm, lm', rfl, rfl, h.imp fun _ _ h => h.2.2⟩
  | @cons x x' xs xs' hxx _ ih =>
    intro lm lm' h
    have hmem : List.ofFn (f.grid.offset x) ∈ lm.keys ↔ List.ofFn (f'.grid.offset x') ∈ lm'.keys := by
      simp only [PyDict.keys]
      have : ∀ (l : List (List ℤ × (Fin m → R))) (l' : List (List ℤ × (Fin m' → R))),
          List.Forall₂ (fun e e' => e.1 = List.ofFn (f.grid.offset e.2) ∧
            e'.1 = List.ofFn (f'.grid.offset e'.2) ∧ P e.2 e'.2) l l' →
          (List.ofFn (f.grid.offset x) ∈ l.map (·.1) ↔
            List.ofFn (f'.grid.offset x') ∈ l'.map (·.1)) := by
        intro l l' hl
        induction hl with
        | nil => simp
        | cons he _ ihl =>
          rw [List.map_cons, List.map_cons, List.mem_cons, List.mem_cons, ihl, he.1, he.2.1,
            List.ofFn_injective.eq_iff, List.ofFn_injective.eq_iff, hk _ _ _ _ hxx he.2.2]
      exact this _ _ h
    by_cases hin : List.ofFn (f.grid.offset x) ∈ lm.keys
    · obtain ⟨out, out', h1, h2, h3⟩ := ih lm lm' h
      refine ⟨out, out', ?_, ?_, h3⟩
      · have h0 := (PyDict.contains_iff _ _).mpr hin
        rw [landmarksLoop]
        simp only [hf, Grid.getCenter, h0, if_true]; exact h1
      · have h0 := (PyDict.contains_iff _ _).mpr (hmem.mp hin)
        rw [landmarksLoop]
        simp only [hf', Grid.getCenter, h0, if_true]; exact h2
    · have hin' := fun h0 => hin (hmem.mpr h0)
      obtain ⟨out, out', h1, h2, h3⟩ := ih (lm.set (List.ofFn (f.grid.offset x)) x)
        (lm'.set (List.ofFn (f'.grid.offset x')) x') (by
          rw [PyDict.items_set_new hin, PyDict.items_set_new hin']
          exact List.rel_append h (.cons ⟨rfl, rfl, hxx⟩ .nil))
      refine ⟨out, out', ?_, ?_, h3⟩
      · have h0 : lm.contains (List.ofFn (f.grid.offset x)) = false := by
          rw [Bool.eq_false_iff]; exact fun h0 => hin ((PyDict.contains_iff _ _).mp h0)
        rw [landmarksLoop]
        simp only [hf, Grid.getCenter, h0]; exact h1
      · have h0 : lm'.contains (List.ofFn (f'.grid.offset x')) = false := by
          rw [Bool.eq_false_iff]; exact fun h0 => hin' ((PyDict.contains_iff _ _).mp h0)
        rw [landmarksLoop]
        simp only [hf', Grid.getCenter, h0]; exact h2

theorem applyStandard_columns (dflt dflt' : ℕ → R) (c : CubCover m R) (c' : CubCover m' R)
    (ρ ρ' : ℕ → ℕ) (y : List (Fin m → R)) (y' : List (Fin m' → R)) (hy : y ≠ []) (p : R)
    (H : CubOK dflt m c.params p) (H' : CubOK dflt' m' c'.params p)
    (hn : c.params.nIntervals = c'.params.nIntervals) (hc : SameColumns y y') :
    ∃ out out', c.applyStandard dflt ρ y = .ok out ∧ c'.applyStandard dflt' ρ' y' = .ok out' ∧
      SameCharts out out' := by
  obtain ⟨d, d', fd, fd', f, f', h1, h1', hd, hd', hoff, hf, hf', hp⟩ :=
    cubFit_columns dflt dflt' c c' ρ ρ' y y' hy p H H' hn hc
  let P : (Fin m → R) → (Fin m' → R) → Prop := fun x x' => ∃ r : ℕ, y[r]? = some x ∧ y'[r]? = some x'
  obtain ⟨lm, lm', e1, e1', hlm⟩ := landmarksLoop_pair d d' fd fd' hd hd' P
    (fun x z x' z' ⟨r, a, b⟩ ⟨s, a', b'⟩ => hoff r s x z x' z' a a' b b') y y'
    (forall₂_of_rows hc.length fun i x x' hx hx' => ⟨i, hx, hx'⟩) PyDict.empty PyDict.empty .nil
  have e2 := standardLoop_ok d f hf lm.items (lm.items.length + 1) (by omega)
  have e2' := standardLoop_ok d' f' hf' lm'.items (lm'.items.length + 1) (by omega)
  refine ⟨(lm.items.reverse.map (fun e => f e.2)).filter (fun l => l ≠ []),
    (lm'.items.reverse.map (fun e => f' e.2)).filter (fun l => l ≠ []), ?_, ?_, ?_⟩
  · unfold CubCover.applyStandard
    simp only [h1, ok_bind, e1]
    exact e2
  · unfold CubCover.applyStandard
    simp only [h1', ok_bind, e1']
    exact e2'
  · have hr := List.rel_reverse hlm
    revert hr
    generalize lm.items.reverse = l
    generalize lm'.items.reverse = l'
    intro hr
    induction hr with
    | nil => exact .nil
    | @cons e e' t t' he _ ih =>
      obtain ⟨r, hx, hx'⟩ := he
      have hpe := hp r _ _ hx hx'
      simp only [List.map_cons, List.filter_cons, decide_eq_true_eq]
      by_cases h0 : f e.2 = []
      · rw [h0] at hpe
        rw [if_neg (by simp [h0]), if_neg (by simp [hpe.nil_eq.symm])]
        exact ih
      · rw [if_pos h0, if_pos (fun h => h0 (by rw [h] at hpe; exact hpe.eq_nil))]
        exact .cons hpe ih

end cubical

end Verif

import Verif.Proof.Units
import Verif.Spec.Noise

/-!
# Lemmas: small changes of the lens
-/

set_option autoImplicit false
set_option linter.unusedSectionVars false

namespace Verif

section metric
variable {T R : Type} [AddCommGroup R] [LinearOrder R] [IsOrderedAddMonoid R]

theorem PseudoMetric.nonneg' {d : T → T → R} (hd : PseudoMetric d) (x y : T) : 0 ≤ d x y := by
  have h1 := hd.triangle x y x
  rw [hd.self, hd.symm y x] at h1
  by_contra h
  push Not at h
  have := add_neg h h
  exact absurd h1 (not_le.mpr this)

/-- Distances change by at most twice the movement. -/
theorem moved_le {d : T → T → R} (hd : PseudoMetric d) {ε : R} {x z x' z' : T} (hx : d x x' ≤ ε)
    (hz : d z z' ≤ ε) : d x' z' ≤ d x z + (ε + ε) ∧ d x z ≤ d x' z' + (ε + ε) := by
  constructor
  · calc d x' z' ≤ d x' x + d x z' := hd.triangle _ _ _
      _ ≤ d x' x + (d x z + d z z') := by gcongr; exact hd.triangle _ _ _
      _ ≤ ε + (d x z + ε) := by
        gcongr
        rw [hd.symm]; exact hx
      _ = d x z + (ε + ε) := by abel
  · calc d x z ≤ d x x' + d x' z := hd.triangle _ _ _
      _ ≤ d x x' + (d x' z' + d z' z) := by gcongr; exact hd.triangle _ _ _
      _ ≤ ε + (d x' z' + ε) := by
        gcongr
        rw [hd.symm]; exact hz
      _ = d x' z' + (ε + ε) := by abel

theorem side_of_clear {a b r δ : R} (h : a + δ < r ∨ r + δ ≤ a) (h1 : b ≤ a + δ) (h2 : a ≤ b + δ) :
    a < r ↔ b < r := by
  have hδ : 0 ≤ δ + δ := by
    have : a ≤ a + (δ + δ) := by
      calc a ≤ b + δ := h2
        _ ≤ a + δ + δ := by gcongr
        _ = a + (δ + δ) := by abel
    simpa using this
  have hδ' : 0 ≤ δ := by
    by_contra hn
    push Not at hn
    exact absurd hδ (not_le.mpr (add_neg hn hn))
  rcases h with h | h
  · exact ⟨fun _ => h1.trans_lt h, fun _ => (le_add_of_nonneg_right hδ').trans_lt h⟩
  · constructor
    · intro ha
      exact absurd ((le_add_of_nonneg_right hδ').trans h) (not_le.mpr ha)
    · intro hb
      have : r + δ ≤ b + δ := h.trans h2
      exact absurd (le_of_add_le_add_right this) (not_le.mpr hb)

theorem order_of_apart {a b a' b' δ : R} (h : a + (δ + δ) < b ∨ b + (δ + δ) < a) (h1 : a' ≤ a + δ)
    (h2 : a ≤ a' + δ) (h3 : b' ≤ b + δ) (h4 : b ≤ b' + δ) : a ≤ b ↔ a' ≤ b' := by
  have hlt : ∀ {a b a' b' : R}, a + (δ + δ) < b → a' ≤ a + δ → a ≤ a' + δ → b ≤ b' + δ → a < b ∧ a' < b' := by
    intro a b a' b' h h1 h2 h4
    have e1 : a' + δ < b' + δ := by
      calc a' + δ ≤ a + δ + δ := by gcongr
        _ = a + (δ + δ) := by abel
        _ < b := h
        _ ≤ b' + δ := h4
    have e2 : a < b := by
      calc a ≤ a' + δ := h2
        _ ≤ a + δ + δ := by gcongr
        _ = a + (δ + δ) := by abel
        _ < b := h
    exact ⟨e2, lt_of_add_lt_add_right e1⟩
  rcases h with h | h
  · obtain ⟨e1, e2⟩ := hlt h h1 h2 h4
    exact ⟨fun _ => e2.le, fun _ => e1.le⟩
  · obtain ⟨e1, e2⟩ := hlt h h3 h4 h2
    exact ⟨fun h => absurd h (not_le.mpr e1), fun h => absurd h (not_le.mpr e2)⟩

end metric

section cubical
variable {R : Type} [Field R] [LinearOrder R] [IsStrictOrderedRing R] [FloorRing R] {m : ℕ}

theorem landmarksLoop_step (c c' : CubCover m R) (f f' : CubFit m R) (hf : c.fitted = some f)
    (hf' : c'.fitted = some f') (Q : (Fin m → R) → (Fin m → R) → Prop) {X X' : List (Fin m → R)}
    (hk : List.Forall₂ (fun x x' => f'.grid.offset x' = f.grid.offset x ∧ Q x x') X X') :
    ∀ (lm lm' : PyDict (List ℤ) (Fin m → R)),
      List.Forall₂ (fun e e' => e.1 = e'.1 ∧ Q e.2 e'.2) lm.items lm'.items →
      ∃ out out', landmarksLoop c lm X = .ok out ∧ landmarksLoop c' lm' X' = .ok out' ∧
        List.Forall₂ (fun e e' => e.1 = e'.1 ∧ Q e.2 e'.2) out.items out'.items := by
  induction hk with
  | nil => exact fun lm lm' h => ⟨lm, lm', rfl, rfl, h⟩
  | @cons x x' xs xs' hx _ ih =>
    intro lm lm' h
    have hkeys : lm.keys = lm'.keys := by
      simp only [PyDict.keys]
      generalize lm.items = l at h
      generalize lm'.items = l' at h
      induction h with
      | nil => rfl
      | cons h1 _ ih => simp [h1.1, ih]
    have hcont : ∀ k, lm.contains k = lm'.contains k := by
      intro k
      rw [Bool.eq_iff_iff, PyDict.contains_iff, PyDict.contains_iff, hkeys]
    have hset : ∀ k v v', Q v v' → List.Forall₂ (fun e e' => e.1 = e'.1 ∧ Q e.2 e'.2)
        (lm.set k v).items (lm'.set k v').items := by
      intro k v v' hv
      show List.Forall₂ _ (PyDict.setList lm.items k v) (PyDict.setList lm'.items k v')
      generalize lm.items = l at h
      generalize lm'.items = l' at h
      induction h with
      | nil => exact .cons ⟨rfl, hv⟩ .nil
      | @cons e e' t t' h1 h2 ih =>
        obtain ⟨k1, v1⟩ := e
        obtain ⟨k2, v2⟩ := e'
        obtain ⟨rfl, h1⟩ := h1
        simp only [PyDict.setList]
        split
        · exact .cons ⟨rfl, hv⟩ h2
        · exact .cons ⟨rfl, h1⟩ ih
    simp only [landmarksLoop, hf, hf', Grid.getCenter, hx.1, ← hcont]
    by_cases hc : lm.contains (List.ofFn (f.grid.offset x)) = true
    · simp only [hc, if_true]
      exact ih lm lm' h
    · simp only [hc]
      exact ih _ _ (hset _ _ _ hx.2)

/-- Two datasets whose rows are in the same cells and boxes. -/
structure SameBoxes (X X' : List (Fin m → R)) (lo hi lo' hi' : Fin m → R) (n : ℕ) (p : R) : Prop where
  length : X.length = X'.length
  bounds : IsBounds X lo hi
  bounds' : IsBounds X' lo' hi'
  cells : ∀ (k : ℕ) x x', X[k]? = some x → X'[k]? = some x' → ∀ c, IsCell lo hi n x c ↔ IsCell lo' hi' n x' c
  boxes : ∀ (k : ℕ) z z', X[k]? = some z → X'[k]? = some z' → ∀ c,
    (∃ x ∈ X, IsCell lo hi n x c) → (InHypercube lo hi n p c z ↔ InHypercube lo' hi' n p c z')

theorem cubFit_pair (dflt dflt' : ℕ → R) (c c' : CubCover m R) (ρ ρ' : ℕ → ℕ)
    (X X' : List (Fin m → R)) (hX : X ≠ []) (p : R) (H : CubOK dflt m c.params p)
    (H' : CubOK dflt' m c'.params p) (hn : c.params.nIntervals = c'.params.nIntervals)
    {lo hi lo' hi' : Fin m → R} (hs : SameBoxes X X' lo hi lo' hi' c.params.nIntervals p) :
    ∃ (d d' : CubCover m R) (fd fd' : CubFit m R) (f f' : (Fin m → R) → List ℕ),
      c.fit dflt ρ X = .ok d ∧ c'.fit dflt' ρ' X' = .ok d' ∧
      d.fitted = some fd ∧ d'.fitted = some fd' ∧
      (∀ x, d.search x = .ok (f x)) ∧ (∀ x, d'.search x = .ok (f' x)) ∧
      ∀ (k : ℕ) x x', X[k]? = some x → X'[k]? = some x' →
        fd'.grid.offset x' = fd.grid.offset x ∧ (f x).Perm (f' x') := by
  have hX' : X' ≠ [] := by
    intro h
    have := hs.length
    rw [h] at this
    exact hX (List.length_eq_zero_iff.mp this)
  obtain ⟨d, g, bc, f, h1, hd, hg, hf, _, hl, _⟩ := cubFitted dflt c ρ X hX p H
  obtain ⟨d', g', bc', f', h1', hd', hg', hf', _, hl', _⟩ := cubFitted dflt' c' ρ' X' hX' p H'
  obtain ⟨e1, e2⟩ := hg.bounds.unique hs.bounds
  obtain ⟨e1', e2'⟩ := hg'.bounds.unique hs.bounds'
  have hoff : ∀ (k : ℕ) x x', X[k]? = some x → X'[k]? = some x' → g'.offset x' = g.offset x := by
    intro k x x' hx hx'
    symm
    rw [← isCell_iff hg' H'.intervals _ (fun i => (hg'.bounds i).2.2 _ (List.mem_of_getElem? hx'))]
    have hc := (isCell_iff hg H.intervals x (fun i => (hg.bounds i).2.2 x (List.mem_of_getElem? hx)) _).mpr rfl
    rw [e1', e2', ← hn, ← hs.cells k x x' hx hx', ← e1, ← e2]
    exact hc
  refine ⟨d, d', ⟨g, bc, decide (1 / 2 < p)⟩, ⟨g', bc', decide (1 / 2 < p)⟩, f, f', h1, h1',
    by rw [hd], by rw [hd'], hf, hf', ?_⟩
  intro k x x' hx hx'
  have hxm := List.mem_of_getElem? hx
  refine ⟨hoff k x x' hx hx', (hl x hxm).perm_pair (hl' _ (List.mem_of_getElem? hx')) hs.length ?_⟩
  intro j z z' hz hz'
  rw [hoff k x x' hx hx', e1, e2, e1', e2', ← hn]
  refine hs.boxes j z z' hz hz' _ ⟨x, hxm, ?_⟩
  rw [← e1, ← e2]
  exact (isCell_iff hg H.intervals x (fun i => (hg.bounds i).2.2 x hxm) _).mpr rfl

theorem applyProximity_pair (dflt dflt' : ℕ → R) (c c' : CubCover m R) (ρ ρ' : ℕ → ℕ)
    (X X' : List (Fin m → R)) (hX : X ≠ []) (p : R) (H : CubOK dflt m c.params p)
    (H' : CubOK dflt' m c'.params p) (hn : c.params.nIntervals = c'.params.nIntervals)
    {lo hi lo' hi' : Fin m → R} (hs : SameBoxes X X' lo hi lo' hi' c.params.nIntervals p) :
    ∃ out out', c.applyProximity dflt ρ X = .ok out ∧
      c'.applyProximity dflt' ρ' X' = .ok out' ∧ SameCharts out out' := by
  obtain ⟨d, d', _, _, f, f', h1, h1', _, _, hf, hf', hp⟩ :=
    cubFit_pair dflt dflt' c c' ρ ρ' X X' hX p H H' hn hs
  exact proximityNet_pair h1 h1' hs.length fun i x x' hx hx' =>
    ⟨_, _, hf x, hf' _, (hp i x x' hx hx').2⟩

theorem applyStandard_pair (dflt dflt' : ℕ → R) (c c' : CubCover m R) (ρ ρ' : ℕ → ℕ)
    (X X' : List (Fin m → R)) (hX : X ≠ []) (p : R) (H : CubOK dflt m c.params p)
    (H' : CubOK dflt' m c'.params p) (hn : c.params.nIntervals = c'.params.nIntervals)
    {lo hi lo' hi' : Fin m → R} (hs : SameBoxes X X' lo hi lo' hi' c.params.nIntervals p) :
    ∃ out out', c.applyStandard dflt ρ X = .ok out ∧
      c'.applyStandard dflt' ρ' X' = .ok out' ∧ SameCharts out out' := by
  obtain ⟨d, d', fd, fd', f, f', h1, h1', hd, hd', hf, hf', hp⟩ :=
    cubFit_pair dflt dflt' c c' ρ ρ' X X' hX p H H' hn hs
  obtain ⟨lm, lm', e1, e1', hlm⟩ := landmarksLoop_step d d' fd fd' hd hd'
    (fun x x' => (f x).Perm (f' x')) (forall₂_of_rows hs.length hp) PyDict.empty PyDict.empty .nil
  have e2 := standardLoop_ok d f hf lm.items (lm.items.length + 1) (by omega)
  have e2' := standardLoop_ok d' f' hf' lm'.items (lm'.items.length + 1) (by omega)
  refine ⟨(lm.items.reverse.map (fun e => f e.2)).filter (fun l => l ≠ []),
    (lm'.items.reverse.map (fun e => f' e.2)).filter (fun l => l ≠ []), ?_, ?_, ?_⟩
  · unfold CubCover.applyStandard
    simp only [h1, ok_bind, e1]
    exact e2
  · unfold CubCover.applyStandard
    simp only [h1', ok_bind, e1']
    exact e2'
  · have hr := List.forall₂_reverse_iff.mpr hlm
    generalize lm.items.reverse = l at hr
    generalize lm'.items.reverse = l' at hr
    induction hr with
    | nil => exact .nil
    | @cons e e' t t' h1 h2 ih =>
      have hpe := h1.2
      simp only [List.map_cons, List.filter_cons, decide_eq_true_eq]
      by_cases h0 : f e.2 = []
      · rw [h0] at hpe
        rw [if_neg (by simp [h0]), if_neg (by simp [hpe.nil_eq.symm])]
        exact ih
      · rw [if_pos h0, if_pos (fun h => h0 (by rw [h] at hpe; exact hpe.eq_nil))]
        exact .cons hpe ih

/-- A number stays on its side of a point it is far enough from. -/
theorem side_same {x x' b ε : R} (h : |x' - x| ≤ ε) (hb : ε < |x - b|) :
    (b ≤ x ↔ b ≤ x') ∧ (x ≤ b ↔ x' ≤ b) ∧ (b < x ↔ b < x') ∧ (x < b ↔ x' < b) := by
  rw [abs_le] at h
  rcases lt_abs.mp hb with h1 | h1
  · refine ⟨⟨fun _ => ?_, fun _ => ?_⟩, ⟨fun _ => ?_, fun _ => ?_⟩, ⟨fun _ => ?_, fun _ => ?_⟩,
      ⟨fun _ => ?_, fun _ => ?_⟩⟩ <;> linarith
  · refine ⟨⟨fun _ => ?_, fun _ => ?_⟩, ⟨fun _ => ?_, fun _ => ?_⟩, ⟨fun _ => ?_, fun _ => ?_⟩,
      ⟨fun _ => ?_, fun _ => ?_⟩⟩ <;> linarith

omit [FloorRing R] [IsStrictOrderedRing R] in
theorem cellRight_eq (lo hi : R) (n : ℕ) (c : ℤ) : cellRight lo hi n c = cellLeft lo hi n (c + 1) := by
  unfold cellRight cellLeft
  push_cast
  rfl

theorem bounds_of_moved {X X' : List (Fin m → R)} {lo hi : Fin m → R} {n : ℕ} (hn : 0 < n) {p ε : R}
    (hb : IsBounds X lo hi) (h : MovedInside lo hi n p ε X X') : IsBounds X' lo hi := by
  intro i
  obtain ⟨⟨x, hx, hxl⟩, ⟨z, hz, hzh⟩, hall⟩ := hb i
  have hn' : (n : R) ≠ 0 := by exact_mod_cast hn.ne'
  have e0 : cellLeft (lo i) (hi i) n 0 = lo i := by simp [cellLeft]
  have e1 : cellLeft (lo i) (hi i) n n = hi i := by
    simp only [cellLeft, Int.cast_natCast]
    field_simp
    ring
  have hfix : ∀ (w : Fin m → R), w ∈ X → (w i = lo i ∨ w i = hi i) → ∃ w' ∈ X', w' i = w i := by
    intro w hw hwl
    obtain ⟨k, hk⟩ := List.mem_iff_getElem?.mp hw
    obtain ⟨w', hw'⟩ := lt_getElem? (l := X') (k := k) (h.1 ▸ getElem?_lt hk)
    refine ⟨w', List.mem_of_getElem? hw', ?_⟩
    rcases h.2 k w w' hk hw' i with he | ⟨_, he, hc⟩
    · exact he
    · exfalso
      have h0 := (abs_nonneg _).trans he
      rcases hwl with e | e
      · have := (hc 0).1
        rw [e, e0, sub_self, abs_zero] at this
        exact absurd h0 (not_le.mpr this)
      · have := (hc n).1
        rw [e, e1, sub_self, abs_zero] at this
        exact absurd h0 (not_le.mpr this)
  obtain ⟨x', hx', hx'e⟩ := hfix x hx (Or.inl hxl)
  obtain ⟨z', hz', hz'e⟩ := hfix z hz (Or.inr hzh)
  refine ⟨⟨x', hx', hx'e.trans hxl⟩, ⟨z', hz', hz'e.trans hzh⟩, fun w' hw' => ?_⟩
  obtain ⟨k, hk⟩ := List.mem_iff_getElem?.mp hw'
  obtain ⟨w, hw⟩ := lt_getElem? (l := X) (k := k) (h.1 ▸ getElem?_lt hk)
  have hwm := hall w (List.mem_of_getElem? hw)
  rcases h.2 k w w' hw hk i with he | ⟨_, he, hc⟩
  · rw [he]; exact hwm
  · have s1 := (side_same he (hc 0).1).1
    have s2 := (side_same he (hc n).1).2.1
    rw [e0] at s1
    rw [e1] at s2
    exact ⟨s1.mp hwm.1, s2.mp hwm.2⟩

theorem sameBoxes_of_moved {X X' : List (Fin m → R)} {lo hi : Fin m → R} {n : ℕ} (hn : 0 < n)
    {p ε : R} (hb : IsBounds X lo hi) (h : MovedInside lo hi n p ε X X') :
    SameBoxes X X' lo hi lo hi n p := by
  refine ⟨h.1, hb, bounds_of_moved hn hb h, fun k x x' hx hx' c => ?_, fun k z z' hz hz' c _ => ?_⟩
  · unfold IsCell
    refine forall_congr' fun i => and_congr (imp_congr_right fun hsp => ?_) Iff.rfl
    rcases h.2 k x x' hx hx' i with he | ⟨_, he, hc⟩
    · rw [he]
    · unfold InCell
      obtain ⟨s1, _, _, _⟩ := side_same he (hc (c i)).1
      obtain ⟨_, s2, _, s4⟩ := side_same he (hc (c i + 1)).1
      rw [cellRight_eq, s1, s2, s4]
  · unfold InHypercube
    refine forall_congr' fun i => imp_congr_right fun hsp => ?_
    rcases h.2 k z z' hz hz' i with he | ⟨_, he, hc⟩
    · rw [he]
    · unfold InBox
      rw [(side_same he (hc (c i)).2.1).2.2.1, (side_same he (hc (c i)).2.2).2.2.2]

end cubical

end Verif

import Verif.Proof.Reproducible
import Verif.Spec.Units

/-!
# Two datasets with corresponding rows
-/

set_option autoImplicit false
set_option linter.unusedSectionVars false

namespace Verif

variable {S T T' : Type}

theorem proximityLoop_pair {F F' : Type} (search : F → T → Py (List ℕ)) (f : F)
    (search' : F' → T' → Py (List ℕ)) (f' : F') (X : List T) :
    ∀ (X' : List T') (i : ℕ) (cov cov' : List ℕ), (∀ j, j ∈ cov ↔ j ∈ cov') →
    List.Forall₂ (fun x x' => ∃ a b, search f x = .ok a ∧ search' f' x' = .ok b ∧ a.Perm b) X X' →
    ∃ out out', proximityLoop search f i X cov = .ok out ∧
      proximityLoop search' f' i X' cov' = .ok out' ∧ SameCharts out out' := by
  induction X with
  | nil =>
    intro X' i cov cov' _ h
    cases h
    exact ⟨[], [], rfl, rfl, .nil⟩
  | cons x rest ih =>
    intro X' i cov cov' hcov hs
    obtain _ | ⟨hx, hrest⟩ := hs
    rename_i x' rest'
    by_cases hi : i ∈ cov
    · obtain ⟨out, out', h1, h2, h3⟩ := ih _ (i + 1) cov cov' hcov hrest
      exact ⟨out, out', by rw [proximityLoop, if_pos hi, h1],
        by rw [proximityLoop, if_pos ((hcov i).mp hi), h2], h3⟩
    · obtain ⟨a, b, ha, hb, hp⟩ := hx
      obtain ⟨out, out', h1, h2, h3⟩ := ih _ (i + 1) (cov ++ a) (cov' ++ b)
        (fun j => by rw [List.mem_append, List.mem_append, hcov, hp.mem_iff]) hrest
      refine ⟨if a = [] then out else a :: out, if b = [] then out' else b :: out', ?_, ?_, ?_⟩
      · rw [proximityLoop, if_neg hi]
        simp only [ha, ok_bind, h1, pure_eq_ok]
      · rw [proximityLoop, if_neg (fun h => hi ((hcov i).mpr h))]
        simp only [hb, ok_bind, h2, pure_eq_ok]
      · by_cases ha0 : a = []
        · subst ha0
          rw [if_pos rfl, if_pos hp.nil_eq.symm]
          exact h3
        · rw [if_neg ha0, if_neg (fun h => ha0 (by subst h; exact hp.eq_nil))]
          exact .cons hp h3

theorem forall₂_of_rows {P : T → T' → Prop} {X : List T} {X' : List T'}
    (hlen : X.length = X'.length)
    (h : ∀ (i : ℕ) x x', X[i]? = some x → X'[i]? = some x' → P x x') : List.Forall₂ P X X' := by
  rw [List.forall₂_iff_get]
  refine ⟨hlen, fun i h1 h2 => h i _ _ ?_ ?_⟩ <;> simp

theorem proximityNet_pair {F F' : Type} {fit : List T → Py F} {search : F → T → Py (List ℕ)}
    {fit' : List T' → Py F'} {search' : F' → T' → Py (List ℕ)} {X : List T} {X' : List T'} {f : F}
    {f' : F'} (h : fit X = .ok f) (h' : fit' X' = .ok f') (hlen : X.length = X'.length)
    (hs : ∀ (i : ℕ) x x', X[i]? = some x → X'[i]? = some x' →
      ∃ a b, search f x = .ok a ∧ search' f' x' = .ok b ∧ a.Perm b) :
    ∃ out out', proximityNet fit search X = .ok out ∧ proximityNet fit' search' X' = .ok out' ∧
      SameCharts out out' := by
  obtain ⟨out, out', h1, h2, h3⟩ := proximityLoop_pair search f search' f' X X' 0 [] [] (by simp)
    (forall₂_of_rows hlen hs)
  refine ⟨out, out', ?_, ?_, h3⟩
  · rw [proximityNet, h]; exact h1
  · rw [proximityNet, h']; exact h2

/-- Lists of the same indices, described over two datasets. -/
theorem ListsExactly.perm_pair {X : List T} {X' : List T'} {P : T → Prop} {P' : T' → Prop}
    {l l' : List ℕ} (h : ListsExactly X P l) (h' : ListsExactly X' P' l')
    (hlen : X.length = X'.length)
    (hp : ∀ (j : ℕ) z z', X[j]? = some z → X'[j]? = some z' → (P z ↔ P' z')) : l.Perm l' := by
  refine (List.perm_ext_iff_of_nodup h.1 h'.1).mpr fun j => ?_
  rw [h.2, h'.2]
  constructor
  · rintro ⟨z, h1, h2⟩
    obtain ⟨z', h3⟩ := lt_getElem? (l := X') (k := j) (by rw [← hlen]; exact getElem?_lt h1)
    exact ⟨z', h3, (hp j z z' h1 h3).mp h2⟩
  · rintro ⟨z', h1, h2⟩
    obtain ⟨z, h3⟩ := lt_getElem? (l := X) (k := j) (by rw [hlen]; exact getElem?_lt h1)
    exact ⟨z, h3, (hp j z z' h3 h1).mpr h2⟩

theorem NearestIndices.transfer {R R' : Type} [LinearOrder R] [LinearOrder R'] {d : T → T → R}
    {d' : T' → T' → R'} {q : T} {q' : T'} {k : ℕ} {X : List T} {X' : List T'} {b : List ℕ}
    (hlen : X.length = X'.length)
    (ho : ∀ (i j : ℕ) xi xj xi' xj', X[i]? = some xi → X[j]? = some xj → X'[i]? = some xi' →
      X'[j]? = some xj' → (d q xi ≤ d q xj ↔ d' q' xi' ≤ d' q' xj'))
    (hb : NearestIndices d' q' k X' b) : NearestIndices d q k X b := by
  obtain ⟨h1, h2, h3, h4⟩ := hb
  refine ⟨h1, by rw [h2, hlen], fun i hi => by rw [hlen]; exact h3 i hi, ?_⟩
  intro i hi j hj xi xj hxi hxj
  obtain ⟨xi', hi'⟩ := lt_getElem? (l := X') (k := i) (by rw [← hlen]; exact getElem?_lt hxi)
  obtain ⟨xj', hj'⟩ := lt_getElem? (l := X') (k := j) (by rw [← hlen]; exact getElem?_lt hxj)
  exact (ho i j xi xj xi' xj' hxi hxj hi' hj').mpr (h4 i hi j hj xi' xj' hi' hj')

section cubical
variable {R : Type} [Field R] [LinearOrder R] [IsStrictOrderedRing R] [FloorRing R] {m : ℕ}

omit [FloorRing R] [IsStrictOrderedRing R] in
theorem cellLeft_units {a b lo hi : R} (n : ℕ) (c : ℤ) :
    cellLeft (a * lo + b) (a * hi + b) n c = a * cellLeft lo hi n c + b := by
  unfold cellLeft; ring

omit [FloorRing R] [IsStrictOrderedRing R] in
theorem cellRight_units {a b lo hi : R} (n : ℕ) (c : ℤ) :
    cellRight (a * lo + b) (a * hi + b) n c = a * cellRight lo hi n c + b := by
  unfold cellRight; ring

omit [FloorRing R] [IsStrictOrderedRing R] in
theorem boxWidth_units {a b lo hi p : R} (n : ℕ) :
    boxWidth (a * lo + b) (a * hi + b) n p = a * boxWidth lo hi n p := by
  unfold boxWidth; ring

omit [FloorRing R] in
theorem inCell_units {a b lo hi x : R} (ha : 0 < a) (n : ℕ) (c : ℤ) :
    InCell (a * lo + b) (a * hi + b) n (a * x + b) c ↔ InCell lo hi n x c := by
  unfold InCell
  rw [cellLeft_units, cellRight_units]
  simp only [add_le_add_iff_right, add_lt_add_iff_right, mul_le_mul_iff_right₀ ha,
    mul_lt_mul_iff_right₀ ha]

omit [FloorRing R] in
theorem inBox_units {a b lo hi p z : R} (ha : 0 < a) (n : ℕ) (c : ℤ) :
    InBox (a * lo + b) (a * hi + b) n p c (a * z + b) ↔ InBox lo hi n p c z := by
  unfold InBox
  rw [cellLeft_units, cellRight_units, boxWidth_units]
  have e1 : a * cellLeft lo hi n c + b - p * (a * boxWidth lo hi n p) / 2 =
      a * (cellLeft lo hi n c - p * boxWidth lo hi n p / 2) + b := by ring
  have e2 : a * cellRight lo hi n c + b + p * (a * boxWidth lo hi n p) / 2 =
      a * (cellRight lo hi n c + p * boxWidth lo hi n p / 2) + b := by ring
  rw [e1, e2]
  simp only [add_lt_add_iff_right, mul_lt_mul_iff_right₀ ha]

omit [FloorRing R] in
theorem isBounds_units {X : List (Fin m → R)} {lo hi a b : Fin m → R} (ha : ∀ i, 0 < a i)
    (hb : IsBounds X lo hi) :
    IsBounds (X.map (otherUnits a b)) (otherUnits a b lo) (otherUnits a b hi) := by
  intro i
  obtain ⟨⟨x1, h1, e1⟩, ⟨x2, h2, e2⟩, h3⟩ := hb i
  refine ⟨⟨_, List.mem_map_of_mem h1, by simp only [otherUnits, e1]⟩,
    ⟨_, List.mem_map_of_mem h2, by simp only [otherUnits, e2]⟩, ?_⟩
  intro x hx
  obtain ⟨z, hz, rfl⟩ := List.mem_map.mp hx
  have := h3 z hz
  simp only [otherUnits, add_le_add_iff_right, mul_le_mul_iff_right₀ (ha i)]
  exact this

theorem landmarksLoop_units (c c' : CubCover m R) (f f' : CubFit m R) (hf : c.fitted = some f)
    (hf' : c'.fitted = some f') (φ : (Fin m → R) → (Fin m → R)) (X : List (Fin m → R))
    (hk : ∀ x ∈ X, f'.grid.offset (φ x) = f.grid.offset x) :
    ∀ (lm lm' : PyDict (List ℤ) (Fin m → R)),
      lm'.items = lm.items.map (fun e => (e.1, φ e.2)) →
      ∀ out, landmarksLoop c lm X = .ok out →
      ∃ out', landmarksLoop c' lm' (X.map φ) = .ok out' ∧
        out'.items = out.items.map (fun e => (e.1, φ e.2)) := by
  induction X with
  | nil => intro lm lm' h out ho; cases ho; exact ⟨lm', rfl, h⟩
  | cons x xs ih =>
    intro lm lm' h out ho
    have hkeys : ∀ k, lm'.contains k = lm.contains k := by
      intro k
      rw [Bool.eq_iff_iff, PyDict.contains_iff, PyDict.contains_iff, PyDict.keys, PyDict.keys, h,
        List.map_map]
      rfl
    have hset : ∀ k v, (lm'.set k (φ v)).items =
        (lm.set k v).items.map (fun e => (e.1, φ e.2)) := by
      intro k v
      show PyDict.setList lm'.items k (φ v) = _
      rw [h]
      show _ = (PyDict.setList lm.items k v).map _
      generalize lm.items = l
      induction l with
      | nil => rfl
      | cons e t iht =>
        simp only [List.map_cons, PyDict.setList]
        split
        · rfl
        · rw [iht]; rfl
    have hx := hk x (by simp)
    have hxs : ∀ y ∈ xs, f'.grid.offset (φ y) = f.grid.offset y := fun y hy => hk y (by simp [hy])
    rw [landmarksLoop] at ho
    simp only [hf, Grid.getCenter] at ho
    rw [List.map_cons, landmarksLoop]
    simp only [hf', Grid.getCenter, hx, hkeys]
    by_cases h0 : lm.contains (List.ofFn (f.grid.offset x)) = true
    · simp only [h0, if_true] at ho ⊢
      exact ih hxs lm lm' h out ho
    · simp only [h0] at ho ⊢
      exact ih hxs _ _ (hset _ _) out ho

/-- Two fits, on data in two systems of units, answer with the same indices at rows. -/
theorem cubFit_units (dflt dflt' : ℕ → R) (c c' : CubCover m R) (ρ ρ' : ℕ → ℕ)
    (X : List (Fin m → R)) (hX : X ≠ []) (p : R) (H : CubOK dflt m c.params p)
    (H' : CubOK dflt' m c'.params p) (hn : c.params.nIntervals = c'.params.nIntervals)
    {a b lo hi : Fin m → R} (ha : ∀ i, 0 < a i) (hb : IsBounds X lo hi)
    (hs : ∀ i, 1 / 2 ^ 52 < hi i - lo i ↔ 1 / 2 ^ 52 < a i * (hi i - lo i)) :
    ∃ (d d' : CubCover m R) (fd fd' : CubFit m R) (f f' : (Fin m → R) → List ℕ),
      c.fit dflt ρ X = .ok d ∧ c'.fit dflt' ρ' (X.map (otherUnits a b)) = .ok d' ∧
      d.fitted = some fd ∧ d'.fitted = some fd' ∧
      (∀ x ∈ X, fd'.grid.offset (otherUnits a b x) = fd.grid.offset x) ∧
      (∀ x, d.search x = .ok (f x)) ∧ (∀ x, d'.search x = .ok (f' x)) ∧
      (∀ x ∈ X, (f x).Perm (f' (otherUnits a b x))) := by
  obtain ⟨d, g, bc, f, h1, hd, hg, hf, _, hl, _⟩ := cubFitted dflt c ρ X hX p H
  obtain ⟨d', g', bc', f', h1', hd', hg', hf', _, hl', _⟩ :=
    cubFitted dflt' c' ρ' (X.map (otherUnits a b)) (by simpa using hX) p H'
  obtain ⟨e1, e2⟩ := hg.bounds.unique hb
  obtain ⟨e1', e2'⟩ := hg'.bounds.unique (isBounds_units (b := b) ha hb)
  have hsp : ∀ i, Spread g'.lo g'.hi i ↔ Spread g.lo g.hi i := by
    intro i
    unfold Spread
    rw [e1, e2, e1', e2', hs i]
    have : otherUnits a b hi i - otherUnits a b lo i = a i * (hi i - lo i) := by
      unfold otherUnits; ring
    rw [this]
  have hoff : ∀ x ∈ X, g'.offset (otherUnits a b x) = g.offset x := by
    intro x hx
    symm
    rw [← isCell_iff hg' H'.intervals _ (fun i => (hg'.bounds i).2.2 _ (List.mem_map_of_mem hx))]
    have hc := (isCell_iff hg H.intervals x (fun i => (hg.bounds i).2.2 x hx) _).mpr rfl
    intro i
    refine ⟨fun h => ?_, fun h => (hc i).2 fun h' => h ((hsp i).mpr h')⟩
    have := (hc i).1 ((hsp i).mp h)
    rw [e1', e2', ← hn]
    rw [e1, e2] at this
    exact (inCell_units (ha i) _ _).mpr this
  refine ⟨d, d', ⟨g, bc, decide (1 / 2 < p)⟩, ⟨g', bc', decide (1 / 2 < p)⟩, f, f', h1, h1',
    by rw [hd], by rw [hd'], hoff, hf, hf', ?_⟩
  intro x hx
  refine (hl x hx).perm_pair (hl' _ (List.mem_map_of_mem hx)) (by simp) ?_
  intro j z z' hz hz'
  rw [List.getElem?_map, hz] at hz'
  simp only [Option.map_some, Option.some.injEq] at hz'
  subst hz'
  rw [hoff x hx]
  unfold InHypercube
  refine forall_congr' fun i => ?_
  rw [hsp i]
  refine imp_congr_right fun _ => ?_
  rw [e1, e2, e1', e2', ← hn]
  exact (inBox_units (ha i) _ _).symm

theorem applyProximity_units (dflt dflt' : ℕ → R) (c c' : CubCover m R) (ρ ρ' : ℕ → ℕ)
    (X : List (Fin m → R)) (hX : X ≠ []) (p : R) (H : CubOK dflt m c.params p)
    (H' : CubOK dflt' m c'.params p) (hn : c.params.nIntervals = c'.params.nIntervals)
    {a b lo hi : Fin m → R} (ha : ∀ i, 0 < a i) (hb : IsBounds X lo hi)
    (hs : ∀ i, 1 / 2 ^ 52 < hi i - lo i ↔ 1 / 2 ^ 52 < a i * (hi i - lo i)) :
    ∃ out out', c.applyProximity dflt ρ X = .ok out ∧
      c'.applyProximity dflt' ρ' (X.map (otherUnits a b)) = .ok out' ∧ SameCharts out out' := by
  obtain ⟨d, d', _, _, f, f', h1, h1', _, _, _, hf, hf', hp⟩ :=
    cubFit_units dflt dflt' c c' ρ ρ' X hX p H H' hn (b := b) ha hb hs
  refine proximityNet_pair h1 h1' (by simp) fun i x x' hx hx' => ?_
  rw [List.getElem?_map, hx] at hx'
  simp only [Option.map_some, Option.some.injEq] at hx'
  subst hx'
  exact ⟨_, _, hf x, hf' _, hp x (List.mem_of_getElem? hx)⟩

theorem applyStandard_units (dflt dflt' : ℕ → R) (c c' : CubCover m R) (ρ ρ' : ℕ → ℕ)
    (X : List (Fin m → R)) (hX : X ≠ []) (p : R) (H : CubOK dflt m c.params p)
    (H' : CubOK dflt' m c'.params p) (hn : c.params.nIntervals = c'.params.nIntervals)
    {a b lo hi : Fin m → R} (ha : ∀ i, 0 < a i) (hb : IsBounds X lo hi)
    (hs : ∀ i, 1 / 2 ^ 52 < hi i - lo i ↔ 1 / 2 ^ 52 < a i * (hi i - lo i)) :
    ∃ out out', c.applyStandard dflt ρ X = .ok out ∧
      c'.applyStandard dflt' ρ' (X.map (otherUnits a b)) = .ok out' ∧ SameCharts out out' := by
  obtain ⟨d, d', fd, fd', f, f', h1, h1', hd, hd', hoff, hf, hf', hp⟩ :=
    cubFit_units dflt dflt' c c' ρ ρ' X hX p H H' hn (b := b) ha hb hs
  obtain ⟨lm, e1, _, hit, _⟩ := landmarksLoop_ok d fd hd X X PyDict.empty (fun _ h => h)
    (by simp [PyDict.keys, PyDict.empty]) (by simp [PyDict.empty])
  obtain ⟨lm', e1', hlm⟩ := landmarksLoop_units d d' fd fd' hd hd' (otherUnits a b) X hoff
    PyDict.empty PyDict.empty rfl lm e1
  have e2 := standardLoop_ok d f hf lm.items (lm.items.length + 1) (by omega)
  have e2' := standardLoop_ok d' f' hf' lm'.items (lm'.items.length + 1) (by omega)
  refine ⟨(lm.items.reverse.map (fun e => f e.2)).filter (fun l => l ≠ []),
    (lm'.items.reverse.map (fun e => f' e.2)).filter (fun l => l ≠ []), ?_, ?_, ?_⟩
  · unfold CubCover.applyStandard
    simp only [h1, ok_bind, e1]
    exact e2
  · unfold CubCover.applyStandard
    simp only [h1', ok_bind, e1']
    exact e2'
  · rw [hlm, ← List.map_reverse, List.map_map]
    have hr : ∀ e ∈ lm.items.reverse, (f e.2).Perm (f' (otherUnits a b e.2)) := fun e he =>
      hp _ (hit e (List.mem_reverse.mp he)).2
    revert hr
    generalize lm.items.reverse = l
    intro hr
    induction l with
    | nil => exact .nil
    | cons e t ih =>
      have ih := ih fun e he => hr e (by simp [he])
      have hpe := hr e (by simp)
      simp only [List.map_cons, List.filter_cons, decide_eq_true_eq, Function.comp]
      by_cases h0 : f e.2 = []
      · rw [h0] at hpe
        rw [if_neg (by simp [h0]), if_neg (by simp [hpe.nil_eq.symm])]
        exact ih
      · rw [if_pos h0, if_pos (fun h => h0 (by rw [h] at hpe; exact hpe.eq_nil))]
        exact .cons hpe ih

end cubical

end Verif

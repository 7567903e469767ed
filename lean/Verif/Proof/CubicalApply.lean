import Verif.Proof.Cubical
import Verif.Spec.CoverParams

/-!
# Lemmas on `apply` of the cubical covers
-/

set_option autoImplicit false

namespace Verif

theorem mem_setList {κ ν : Type} [DecidableEq κ] (l : List (κ × ν)) (k : κ) (v : ν) (e : κ × ν)
    (h : e ∈ PyDict.setList l k v) : e = (k, v) ∨ e ∈ l := by
  induction l with
  | nil => left; simpa [PyDict.setList] using h
  | cons a t ih =>
    rw [PyDict.setList] at h
    split at h
    · rename_i hk
      rcases List.mem_cons.mp h with h | h
      · left; rw [h, hk]
      · right; exact List.mem_cons_of_mem _ h
    · rcases List.mem_cons.mp h with h | h
      · right; rw [h]; exact List.mem_cons_self
      · rcases ih h with h | h
        · left; exact h
        · right; exact List.mem_cons_of_mem _ h

variable {R : Type} [Field R] [LinearOrder R] [FloorRing R] {m : ℕ}

theorem landmarksLoop_ok (c : CubCover m R) (f : CubFit m R) (hf : c.fitted = some f)
    (Y : List (Fin m → R)) : ∀ (X : List (Fin m → R)) (lm : PyDict (List ℤ) (Fin m → R)),
    (∀ x ∈ X, x ∈ Y) → lm.keys.Nodup →
    (∀ e ∈ lm.items, e.1 = List.ofFn (f.grid.offset e.2) ∧ e.2 ∈ Y) →
    ∃ lm', landmarksLoop c lm X = .ok lm' ∧ lm'.keys.Nodup ∧
      (∀ e ∈ lm'.items, e.1 = List.ofFn (f.grid.offset e.2) ∧ e.2 ∈ Y) ∧
      (∀ k ∈ lm.keys, k ∈ lm'.keys) ∧
      ∀ x ∈ X, List.ofFn (f.grid.offset x) ∈ lm'.keys := by
  intro X
  induction X with
  | nil => intro lm _ h1 h2; exact ⟨lm, rfl, h1, h2, fun _ h => h, by simp⟩
  | cons x xs ih =>
    intro lm hY h1 h2
    have hxY : x ∈ Y := hY x (by simp)
    have hY' : ∀ y ∈ xs, y ∈ Y := fun y hy => hY y (by simp [hy])
    by_cases hc : lm.contains (List.ofFn (f.grid.offset x)) = true
    · obtain ⟨lm', e, g1, g2, g3, g4⟩ := ih lm hY' h1 h2
      refine ⟨lm', ?_, g1, g2, g3, ?_⟩
      · rw [landmarksLoop]; simp only [hf, Grid.getCenter, hc, if_true]; exact e
      · intro y hy
        rcases List.mem_cons.mp hy with rfl | hy
        · exact g3 _ ((PyDict.contains_iff _ _).mp hc)
        · exact g4 y hy
    · obtain ⟨lm', e, g1, g2, g3, g4⟩ := ih (lm.set (List.ofFn (f.grid.offset x)) x) hY'
        (PyDict.nodup_keys_set h1 _ _) (by
          intro e he
          rcases mem_setList _ _ _ _ he with rfl | he
          · exact ⟨rfl, hxY⟩
          · exact h2 e he)
      have hkey : ∀ k, k ∈ lm.keys ∨ k = List.ofFn (f.grid.offset x) →
          k ∈ (lm.set (List.ofFn (f.grid.offset x)) x).keys := by
        intro k hk
        rw [← PyDict.isSome_get?, PyDict.get?_set]
        split
        · rfl
        · rcases hk with hk | hk
          · rwa [PyDict.isSome_get?]
          · contradiction
      refine ⟨lm', ?_, g1, g2, fun k hk => g3 k (hkey k (Or.inl hk)), ?_⟩
      · rw [landmarksLoop]; simp only [hf, Grid.getCenter, hc]; exact e
      · intro y hy
        rcases List.mem_cons.mp hy with rfl | hy
        · exact g3 _ (hkey _ (Or.inr rfl))
        · exact g4 y hy

theorem standardLoop_ok (c : CubCover m R) (f : (Fin m → R) → List ℕ)
    (hf : ∀ x, c.search x = .ok (f x)) : ∀ (items : List (List ℤ × (Fin m → R))) (steps : ℕ),
    items.length < steps →
    standardLoop c steps ⟨items⟩ =
      .ok ((items.reverse.map (fun e => f e.2)).filter (fun l => l ≠ [])) := by
  intro items
  induction items using List.reverseRecOn with
  | nil =>
    intro steps h
    cases steps with
    | zero => simp at h
    | succ s => rfl
  | append_singleton l e ih =>
    intro steps h
    cases steps with
    | zero => simp at h
    | succ s =>
      have := ih s (by simpa using h)
      rw [standardLoop]
      have hne : (l ++ [e]).isEmpty = false := by simp
      simp only [hne, PyDict.popitem, List.getLast?_append, List.getLast?_singleton,
        Option.some_or, ok_bind, List.dropLast_concat, hf, this, pure_eq_ok, List.reverse_append,
        List.reverse_singleton, List.singleton_append, List.map_cons]
      by_cases h0 : f e.2 = []
      · simp [h0]
      · simp [h0]

section
variable [IsStrictOrderedRing R]

/-- Two repetition-free lists of the same indices. -/
theorem ListsExactly.perm {T : Type} {X : List T} {P : T → Prop} {l l' : List ℕ}
    (h : ListsExactly X P l) (h' : ListsExactly X P l') : l.Perm l' :=
  (List.perm_ext_iff_of_nodup h.1 h'.1).mpr fun j => by rw [h.2, h'.2]

theorem ListsExactly.congr {T : Type} {X : List T} {P Q : T → Prop} {l : List ℕ}
    (h : ListsExactly X P l) (hpq : ∀ z ∈ X, P z ↔ Q z) : ListsExactly X Q l := by
  refine ⟨h.1, fun j => ?_⟩
  rw [h.2]
  constructor
  · rintro ⟨z, h1, h2⟩; exact ⟨z, h1, (hpq z (List.mem_of_getElem? h1)).mp h2⟩
  · rintro ⟨z, h1, h2⟩; exact ⟨z, h1, (hpq z (List.mem_of_getElem? h1)).mpr h2⟩

/-- A fitted cover answers with the hypercube of the cell of the query. -/
theorem cubFitted (dflt : ℕ → R) (c : CubCover m R) (ρ : ℕ → ℕ) (X : List (Fin m → R))
    (hX : X ≠ []) (p : R) (H : CubOK dflt m c.params p) :
    ∃ (c' : CubCover m R) (g : Grid m R) (b : BallCover (Fin m → R) R) (f : (Fin m → R) → List ℕ),
      c.fit dflt ρ X = .ok c' ∧
      c' = ⟨c.params, some ⟨g, b, decide (1 / 2 < p)⟩⟩ ∧
      GridOK g X c.params.nIntervals p ∧ (∀ x, c'.search x = .ok (f x)) ∧
      (∀ x, ListsExactly X (fun z => ∀ i, InBox (g.lo i)
        (gridHi g.lo g.hi c.params.nIntervals i) c.params.nIntervals p (g.offset x i) (z i)) (f x)) ∧
      (∀ x ∈ X, ListsExactly X (InHypercube g.lo g.hi c.params.nIntervals p (g.offset x)) (f x)) ∧
      (∀ (i : ℕ) x, X[i]? = some x → i ∈ f x) := by
  obtain ⟨g, b, h1, hg, h2⟩ := cubSearch_ok dflt c ρ X hX p H.overlap H.pos H.lt_one H.intervals
    H.kind H.capacity
  choose f hf hl using h2
  refine ⟨_, g, b, f, h1, rfl, hg, hf, hl, ?_, ?_⟩
  · intro x hx
    refine (hl x).congr fun z hz => ?_
    apply inHypercube_iff hg.bounds H.intervals H.pos H.lt_one ?_ hz
    intro i hs
    exact (((isCell_iff hg H.intervals x (fun i => (hg.bounds i).2.2 x hx) _).mpr rfl) i).2 hs
  · intro i x hx
    rw [(hl x).2]
    refine ⟨x, hx, fun k => ?_⟩
    have hxX := List.mem_of_getElem? hx
    exact inBox_self H.intervals (gridHi_gt H.intervals k) H.pos H.lt_one
      ((offset_iff hg H.intervals x k _).mpr rfl)
      (le_gridHi H.intervals ((hg.bounds k).2.2 x hxX).2)

/-- The cells in the order in which `StandardCubicalCover.apply` yields them. -/
theorem applyStandard_ok (dflt : ℕ → R) (c : CubCover m R) (ρ : ℕ → ℕ) (X : List (Fin m → R))
    (hX : X ≠ []) (p : R) (H : CubOK dflt m c.params p) {lo hi : Fin m → R}
    (hb : IsBounds X lo hi) :
    ∃ (cells : List (Fin m → ℤ)) (out : List (List ℕ)),
      c.applyStandard dflt ρ X = .ok out ∧ cells.Nodup ∧
      (∀ cell, cell ∈ cells ↔ ∃ x ∈ X, IsCell lo hi c.params.nIntervals x cell) ∧
      List.Forall₂ (fun cell chart =>
        ListsExactly X (InHypercube lo hi c.params.nIntervals p cell) chart ∧ chart ≠ []) cells out ∧
      ∀ i, i < X.length → ∃ chart ∈ out, i ∈ chart := by
  obtain ⟨c', g, b, f, h1, hc', hg, hf, _, hl, hself⟩ := cubFitted dflt c ρ X hX p H
  obtain ⟨rfl, rfl⟩ := hg.bounds.unique hb
  obtain ⟨lm, e1, hnd, hit, _, hkeys⟩ := landmarksLoop_ok c' ⟨g, b, decide (1 / 2 < p)⟩
    (by rw [hc']) X X PyDict.empty (fun _ h => h) (by simp [PyDict.keys, PyDict.empty])
    (by simp [PyDict.empty])
  have e2 := standardLoop_ok c' f hf lm.items (lm.items.length + 1) (by omega)
  have hne : ∀ x ∈ X, f x ≠ [] := by
    intro x hx h0
    obtain ⟨i, hi⟩ := List.mem_iff_getElem?.mp hx
    have := hself i x hi
    rw [h0] at this; simp at this
  have e3 : (lm.items.reverse.map (fun e => f e.2)).filter (fun l => l ≠ []) =
      lm.items.reverse.map (fun e => f e.2) := by
    rw [List.filter_eq_self]
    intro l hl'
    obtain ⟨e, he, rfl⟩ := List.mem_map.mp hl'
    simpa using hne e.2 (hit e (List.mem_reverse.mp he)).2
  have hcells : ∀ cell, cell ∈ lm.items.reverse.map (fun e => g.offset e.2) ↔
      ∃ x ∈ X, cell = g.offset x := by
    intro cell
    rw [List.mem_map]
    constructor
    · rintro ⟨e, he, rfl⟩
      exact ⟨e.2, (hit e (List.mem_reverse.mp he)).2, rfl⟩
    · rintro ⟨x, hx, rfl⟩
      have := hkeys x hx
      rw [PyDict.keys, List.mem_map] at this
      obtain ⟨e, he, hek⟩ := this
      refine ⟨e, List.mem_reverse.mpr he, ?_⟩
      have h3 := (hit e he).1
      rw [hek] at h3
      exact (List.ofFn_injective h3).symm
  refine ⟨lm.items.reverse.map (fun e => g.offset e.2), lm.items.reverse.map (fun e => f e.2),
    ?_, ?_, ?_, ?_, ?_⟩
  · unfold CubCover.applyStandard
    simp only [h1, ok_bind, e1]
    rw [← e3]; exact e2
  · have h4 : (lm.items.reverse.map (fun e => g.offset e.2)).map List.ofFn = lm.keys.reverse := by
      rw [List.map_map, PyDict.keys, ← List.map_reverse]
      apply List.map_congr_left
      intro e he
      exact (hit e (List.mem_reverse.mp he)).1.symm
    apply List.Nodup.of_map List.ofFn
    rw [h4]
    exact List.nodup_reverse.mpr hnd
  · intro cell
    rw [hcells]
    constructor
    · rintro ⟨x, hx, h⟩
      exact ⟨x, hx, (isCell_iff hg H.intervals x (fun i => (hg.bounds i).2.2 x hx) _).mpr h⟩
    · rintro ⟨x, hx, h⟩
      exact ⟨x, hx, (isCell_iff hg H.intervals x (fun i => (hg.bounds i).2.2 x hx) _).mp h⟩
  · rw [List.forall₂_map_left_iff, List.forall₂_map_right_iff, List.forall₂_same]
    intro e he
    have hx := (hit e (List.mem_reverse.mp he)).2
    exact ⟨hl e.2 hx, hne e.2 hx⟩
  · intro i hi
    have hxi : X[i]? = some X[i] := List.getElem?_eq_getElem hi
    have hx : X[i] ∈ X := List.getElem_mem hi
    obtain ⟨e, he, heq⟩ := List.mem_map.mp ((hcells (g.offset X[i])).mpr ⟨_, hx, rfl⟩)
    refine ⟨f e.2, List.mem_map.mpr ⟨e, he, rfl⟩, ?_⟩
    have hx' := (hit e (List.mem_reverse.mp he)).2
    have h5 := hl e.2 hx'
    have h6 := hl X[i] hx
    rw [← heq] at h6
    exact (h5.perm h6).mem_iff.mpr (hself i _ hxi)

/-- The cells of the charts yielded by `ProximityCubicalCover.apply`. -/
theorem applyProximity_ok (dflt : ℕ → R) (c : CubCover m R) (ρ : ℕ → ℕ) (X : List (Fin m → R))
    (hX : X ≠ []) (p : R) (H : CubOK dflt m c.params p) {lo hi : Fin m → R}
    (hb : IsBounds X lo hi) :
    ∃ (cells : List (Fin m → ℤ)) (out : List (List ℕ)),
      c.applyProximity dflt ρ X = .ok out ∧ cells.Nodup ∧
      (∀ cell ∈ cells, ∃ x ∈ X, IsCell lo hi c.params.nIntervals x cell) ∧
      List.Forall₂ (fun cell chart =>
        ListsExactly X (InHypercube lo hi c.params.nIntervals p cell) chart ∧ chart ≠ []) cells out ∧
      ∀ i, i < X.length → ∃ chart ∈ out, i ∈ chart := by
  obtain ⟨c', g, b, f, h1, hc', hg, hf, _, hl, hself⟩ := cubFitted dflt c ρ X hX p H
  obtain ⟨rfl, rfl⟩ := hg.bounds.unique hb
  let x₀ : Fin m → R := fun _ => 0
  let pt : ℕ → (Fin m → R) := fun i => (X[i]?).getD x₀
  have hpt : ∀ i, i < X.length → X[i]? = some (pt i) := by
    intro i hi
    simp [pt, List.getElem?_eq_getElem hi]
  have hr : ∀ i x, X[i]? = some x → c'.search x = .ok (f (pt i)) := by
    intro i x hx
    simp only [pt, hx, Option.getD_some]; exact hf x
  have hs' : ∀ i, i < X.length → i ∈ f (pt i) := fun i hi => hself i _ (hpt i hi)
  obtain ⟨out, cs, e, hsort, hm, ho⟩ := C29_proximity_net (c.fit dflt ρ) CubCover.search X c' h1
    (fun i => f (pt i)) hr
  obtain ⟨out', e', hcov, _⟩ := C29_proximity_net_covers (c.fit dflt ρ) CubCover.search X c' h1
    (fun i => f (pt i)) hr hs'
  rw [e] at e'; cases e'
  have hlt : ∀ i ∈ cs, i < X.length := fun i hi => ((hm i).mp hi).1
  have hmem : ∀ i ∈ cs, pt i ∈ X := fun i hi => List.mem_of_getElem? (hpt i (hlt i hi))
  have ho' : out = cs.map (fun i => f (pt i)) := by
    rw [ho, List.filter_eq_self]
    intro l hl'
    obtain ⟨i, hi, rfl⟩ := List.mem_map.mp hl'
    have := hs' i (hlt i hi)
    simp only [decide_eq_true_eq]
    intro h; rw [h] at this; simp at this
  refine ⟨cs.map (fun i => g.offset (pt i)), out, e, ?_, ?_, ?_, hcov⟩
  · rw [List.Nodup, List.pairwise_map]
    refine List.Pairwise.imp_of_mem ?_ hsort
    intro j i hj hi hji heq
    have h7 := ((hm i).mp hi).2 j hj hji
    apply h7
    have h5 := hl (pt j) (hmem j hj)
    have h6 := hl (pt i) (hmem i hi)
    rw [← heq] at h6
    exact (h5.perm h6).mem_iff.mpr (hs' i (hlt i hi))
  · intro cell hcell
    obtain ⟨i, hi, rfl⟩ := List.mem_map.mp hcell
    exact ⟨pt i, hmem i hi, (isCell_iff hg H.intervals _
      (fun k => (hg.bounds k).2.2 _ (hmem i hi)) _).mpr rfl⟩
  · rw [ho', List.forall₂_map_left_iff, List.forall₂_map_right_iff, List.forall₂_same]
    intro i hi
    refine ⟨hl _ (hmem i hi), fun h => ?_⟩
    have := hs' i (hlt i hi)
    rw [h] at this; simp at this

end

end Verif

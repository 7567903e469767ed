import Verif.Proof.Append

/-!
# C90: appending rows

`ChartsExtend`, `GraphExtends` and `ComponentsExtend` are in `Verif.Spec.Append`.
-/

set_option autoImplicit false
set_option linter.unusedSectionVars false

namespace Verif

variable {S T : Type}

section ball
variable {R : Type} [AddCommGroup R] [LinearOrder R] [IsOrderedAddMonoid R]

/-- **C90 (balls).** With `BallCover` and the trivial clustering, the graph of a dataset with
rows appended contains the graph of the dataset: the nodes keep their numbers and, of the old
rows, exactly those they had; edges remain; rows of one connected component stay together. If
every appended row is at distance 0 from an old one, there are no further nodes, and the two
rows are in the same nodes. The trees, the pivots and the random draws of the two runs may
differ. -/
theorem C90_ball (c c' : BallCover T R) (H : BallOK c.params) (H' : BallOK c'.params)
    (hm : c.params.metric = c'.params.metric) (hr : c.params.radius = c'.params.radius)
    (h0 : 0 < c.params.radius) (ρ ρ' : ℕ → ℕ) (X X' : List S) (y z : List T)
    (hl : X.length = y.length) (hl' : X'.length = (y ++ z).length)
    (order order' : List ℤ → List ℤ) (ho : ∀ l L, L ∈ order l ↔ L ∈ l)
    (ho' : ∀ l L, L ∈ order' l ↔ L ∈ l) :
    ∃ g g' out out', mapperGraph X y (c.apply ρ) (fun _ => trivialClustering) = .ok g ∧
      mapperGraph X' (y ++ z) (c'.apply ρ') (fun _ => trivialClustering) = .ok g' ∧
      GraphExtends y.length id g g' ∧
      mapperConnectedComponents order X y (c.apply ρ) (fun _ => trivialClustering) = .ok out ∧
      mapperConnectedComponents order' X' (y ++ z) (c'.apply ρ') (fun _ => trivialClustering)
        = .ok out' ∧
      ComponentsExtend y.length out out' ∧
      ((∀ v ∈ z, ∃ x ∈ y, c.params.metric x v = 0) → (∀ u, g'.IsNode u → g.IsNode u) ∧
        ∀ (i j : ℕ) xi xj, (y ++ z)[i]? = some xi → (y ++ z)[j]? = some xj →
          c.params.metric xi xj = 0 → ∀ u size l, g'.nodes.get? u = some ⟨size, some l⟩ →
          (i ∈ l ↔ j ∈ l)) := by
  obtain ⟨charts, charts', e, e', hx, hdup⟩ := ball_append c c' H H' hm hr h0 ρ ρ' y z
  obtain ⟨_, _, e2, hw, hcov, _⟩ := C18_ball_cover c H h0 ρ y
  rw [e] at e2; cases e2
  obtain ⟨_, _, e2, hw', hcov', _, hball, _⟩ := C18_ball_cover c' H' (hr ▸ h0) ρ' (y ++ z)
  rw [e'] at e2; cases e2
  rw [← hl] at hw hcov
  rw [← hl'] at hw' hcov'
  obtain ⟨g, g', out, out', h1, h2, h3, h4, h5, h6, h7, h8, h9⟩ := hx.result (X := X) (X' := X')
    e e' hl (by rw [hl', List.length_append]; omega) hw hw' hcov hcov' order order' ho ho'
  refine ⟨g, g', out, out', h1, h2, h3, h4, h5, h6, fun hz => ⟨fun u hu => ?_, ?_⟩⟩
  · rw [h8, hdup hz] at hu
    rw [h7]; exact hu
  · intro i j xi xj hi hj hd u size l hu
    have hnode : g'.IsNode u := by
      rw [NxGraph.IsNode, ← PyDict.isSome_get?, hu]; rfl
    obtain ⟨k, hk, rfl⟩ := (h8 u).mp hnode
    obtain ⟨l', hl1, hl2⟩ := h9 k charts'[k] (List.getElem?_eq_getElem hk)
    rw [hu] at hl1
    obtain ⟨rfl⟩ : l = l' := by
      simp only [Option.some.injEq, NodeAttr.mk.injEq] at hl1
      exact hl1.2
    obtain ⟨q, hq, hex⟩ := hball.get (hball.length_eq ▸ hk) hk
    rw [← hm, ← hr] at hex
    rw [hl2, hl2]
    have hex' : ListsExactly (y ++ z) (fun v => c.params.metric q v < c.params.radius) charts'[k] := hex
    rw [hex'.2, hex'.2]
    have hdist : c.params.metric q xi = c.params.metric q xj := by
      apply le_antisymm
      · have := H.metric.triangle q xj xi
        rw [H.metric.symm xj xi, hd, add_zero] at this
        exact this
      · have := H.metric.triangle q xi xj
        rw [hd, add_zero] at this
        exact this
    constructor
    · rintro ⟨a, ha, hlt⟩
      rw [hi] at ha; cases ha
      exact ⟨xj, hj, lt_of_eq_of_lt hdist.symm hlt⟩
    · rintro ⟨a, ha, hlt⟩
      rw [hj] at ha; cases ha
      exact ⟨xi, hi, lt_of_eq_of_lt hdist hlt⟩

end ball

section cubical
variable {R : Type} [Field R] [LinearOrder R] [FloorRing R] [IsStrictOrderedRing R] {m : ℕ}

/-- **C90 (proximity cubical cover).** The same holds for `ProximityCubicalCover`, if the
appended rows are within the bounding box of the dataset. -/
theorem C90_cubical_proximity (dflt dflt' : ℕ → R) (c c' : CubCover m R) (ρ ρ' : ℕ → ℕ) (p : R)
    (H : CubOK dflt m c.params p) (H' : CubOK dflt' m c'.params p)
    (hn : c.params.nIntervals = c'.params.nIntervals) (X X' : List S) (y z : List (Fin m → R))
    (hy : y ≠ []) (hl : X.length = y.length) (hl' : X'.length = (y ++ z).length)
    (lo hi : Fin m → R) (hb : IsBounds y lo hi) (hz : ∀ v ∈ z, ∀ i, lo i ≤ v i ∧ v i ≤ hi i)
    (order order' : List ℤ → List ℤ) (ho : ∀ l L, L ∈ order l ↔ L ∈ l)
    (ho' : ∀ l L, L ∈ order' l ↔ L ∈ l) :
    ∃ g g' out out',
      mapperGraph X y (c.applyProximity dflt ρ) (fun _ => trivialClustering) = .ok g ∧
      mapperGraph X' (y ++ z) (c'.applyProximity dflt' ρ') (fun _ => trivialClustering) = .ok g' ∧
      GraphExtends y.length id g g' ∧
      mapperConnectedComponents order X y (c.applyProximity dflt ρ)
        (fun _ => trivialClustering) = .ok out ∧
      mapperConnectedComponents order' X' (y ++ z) (c'.applyProximity dflt' ρ')
        (fun _ => trivialClustering) = .ok out' ∧
      ComponentsExtend y.length out out' ∧
      ((∀ v ∈ z, v ∈ y) → ∀ u, g'.IsNode u → g.IsNode u) := by
  obtain ⟨charts, charts', e, e', hx, hdup⟩ :=
    applyProximity_append dflt dflt' c c' ρ ρ' y z hy p H H' hn lo hi hb hz
  obtain ⟨_, ⟨_, e2, hw, hcov⟩, _⟩ := C22_cubical_cover dflt c p H ρ y
  rw [e] at e2; cases e2
  obtain ⟨_, ⟨_, e2, hw', hcov'⟩, _⟩ := C22_cubical_cover dflt' c' p H' ρ' (y ++ z)
  rw [e'] at e2; cases e2
  rw [← hl] at hw hcov
  rw [← hl'] at hw' hcov'
  obtain ⟨g, g', out, out', h1, h2, h3, h4, h5, h6, h7, h8, _⟩ := hx.result (X := X) (X' := X')
    e e' hl (by rw [hl', List.length_append]; omega) hw hw' hcov hcov' order order' ho ho'
  refine ⟨g, g', out, out', h1, h2, h3, h4, h5, h6, fun hzz u hu => ?_⟩
  rw [h8, hdup hzz] at hu
  rw [h7]; exact hu

/-- **C90 (standard cubical cover).** The same holds for `StandardCubicalCover`, except that
the numbers of the old nodes grow by the number of new nodes. -/
theorem C90_cubical_standard (dflt dflt' : ℕ → R) (c c' : CubCover m R) (ρ ρ' : ℕ → ℕ) (p : R)
    (H : CubOK dflt m c.params p) (H' : CubOK dflt' m c'.params p)
    (hn : c.params.nIntervals = c'.params.nIntervals) (X X' : List S) (y z : List (Fin m → R))
    (hy : y ≠ []) (hl : X.length = y.length) (hl' : X'.length = (y ++ z).length)
    (lo hi : Fin m → R) (hb : IsBounds y lo hi) (hz : ∀ v ∈ z, ∀ i, lo i ≤ v i ∧ v i ≤ hi i)
    (order order' : List ℤ → List ℤ) (ho : ∀ l L, L ∈ order l ↔ L ∈ l)
    (ho' : ∀ l L, L ∈ order' l ↔ L ∈ l) :
    ∃ (g g' : NxGraph) (out out' : List ℤ) (new : ℕ),
      mapperGraph X y (c.applyStandard dflt ρ) (fun _ => trivialClustering) = .ok g ∧
      mapperGraph X' (y ++ z) (c'.applyStandard dflt' ρ') (fun _ => trivialClustering) = .ok g' ∧
      GraphExtends y.length (fun k => new + k) g g' ∧
      (∀ u : ℤ, g'.IsNode u ↔ (0 ≤ u ∧ u < new) ∨ g.IsNode (u - new)) ∧
      mapperConnectedComponents order X y (c.applyStandard dflt ρ)
        (fun _ => trivialClustering) = .ok out ∧
      mapperConnectedComponents order' X' (y ++ z) (c'.applyStandard dflt' ρ')
        (fun _ => trivialClustering) = .ok out' ∧
      ComponentsExtend y.length out out' ∧
      ((∀ v ∈ z, v ∈ y) → new = 0) := by
  obtain ⟨charts, charts', new, e, e', hlen, hx, hdup⟩ :=
    applyStandard_append dflt dflt' c c' ρ ρ' y z hy p H H' hn lo hi hb hz
  obtain ⟨⟨_, e2, hw, hcov⟩, _, _⟩ := C22_cubical_cover dflt c p H ρ y
  rw [e] at e2; cases e2
  obtain ⟨⟨_, e2, hw', hcov'⟩, _, _⟩ := C22_cubical_cover dflt' c' p H' ρ' (y ++ z)
  rw [e'] at e2; cases e2
  rw [← hl] at hw hcov
  rw [← hl'] at hw' hcov'
  obtain ⟨g, g', out, out', h1, h2, h3, h4, h5, h6, h7, h8, _⟩ := hx.result (X := X) (X' := X')
    e e' hl (by rw [hl', List.length_append]; omega) hw hw' hcov hcov' order order' ho ho'
  refine ⟨g, g', out, out', new, h1, h2, h3, fun u => ?_, h4, h5, h6, hdup⟩
  rw [h8, h7, hlen]
  constructor
  · rintro ⟨k, hk, rfl⟩
    by_cases hkn : k < new
    · left; omega
    · right; exact ⟨k - new, by omega, by omega⟩
  · rintro (⟨ha, hb⟩ | ⟨k, hk, hu⟩)
    · exact ⟨u.toNat, by omega, by omega⟩
    · exact ⟨new + k, by omega, by omega⟩

end cubical

/-- Non-vacuity for the balls: two rows appended to five, with another tree and random pivots;
the second one is a copy of an old row. -/
example : ∃ g g', mapperGraph [5, 1, 3, 4, 9] [5, 1, 3, 4, 9]
      ((demoBall 2).apply fun _ => 0) (fun _ => trivialClustering) = .ok g ∧
    mapperGraph [5, 1, 3, 4, 9, 7, 3] ([5, 1, 3, 4, 9] ++ [7, 3])
      ((⟨⟨2, absDist, "hierarchical", 3, some 1, "random"⟩, none⟩ : BallCover ℤ ℤ).apply
        fun n => n * n) (fun _ => trivialClustering) = .ok g' ∧
    GraphExtends 5 id g g' := by
  obtain ⟨g, g', _, _, h1, h2, h3, _⟩ := C90_ball (demoBall 2)
    ⟨⟨2, absDist, "hierarchical", 3, some 1, "random"⟩, none⟩ (demoBall_ok 2)
    ⟨absDist_pseudo, Or.inr rfl, by decide⟩ rfl rfl (by decide) (fun _ => 0) (fun n => n * n)
    [5, 1, 3, 4, 9] [5, 1, 3, 4, 9, 7, 3] [5, 1, 3, 4, 9] [7, 3] rfl rfl id id
    (fun _ _ => Iff.rfl) (fun _ _ => Iff.rfl)
  exact ⟨g, g', h1, h2, h3⟩

/-- The charts of this example: the appended row 5 (value 7) makes a fifth chart, the appended
row 6 (value 3) joins the third one. -/
example : (demoBall 2).apply (fun _ => 0) [5, 1, 3, 4, 9] = .ok [[0, 3], [1], [3, 2], [4]] ∧
    (demoBall 2).apply (fun _ => 0) [5, 1, 3, 4, 9, 7, 3]
      = .ok [[0, 3], [1], [3, 2, 6], [4], [5]] := by decide +kernel

/-- Non-vacuity for the cubical covers: rows appended within the bounding box. -/
example : ∃ (g g' : NxGraph) (new : ℕ),
    mapperGraph [pt2 0 0, pt2 1 1, pt2 2 2] [pt2 0 7, pt2 2 7, pt2 4 8]
      (demoCub.applyStandard (fun _ => 0) fun _ => 0) (fun _ => trivialClustering) = .ok g ∧
    mapperGraph [pt2 0 0, pt2 1 1, pt2 2 2, pt2 3 3] ([pt2 0 7, pt2 2 7, pt2 4 8] ++ [pt2 1 8])
      (demoCub.applyStandard (fun _ => 0) fun _ => 0) (fun _ => trivialClustering) = .ok g' ∧
    GraphExtends 3 (fun k => new + k) g g' := by
  have hb : IsBounds [pt2 0 7, pt2 2 7, pt2 4 8] (pt2 0 7) (pt2 4 8) := by
    intro i
    fin_cases i <;> simp [pt2] <;> norm_num
  obtain ⟨g, g', _, _, new, h1, h2, h3, _⟩ := C90_cubical_standard (fun _ => 0) (fun _ => 0)
    demoCub demoCub (fun _ => 0) (fun _ => 0) (1 / 3) demoCub_ok demoCub_ok rfl
    [pt2 0 0, pt2 1 1, pt2 2 2] [pt2 0 0, pt2 1 1, pt2 2 2, pt2 3 3] [pt2 0 7, pt2 2 7, pt2 4 8] [pt2 1 8] (by simp) rfl rfl (pt2 0 7) (pt2 4 8) hb
    (by
      intro v hv i
      rw [List.mem_singleton] at hv
      subst hv
      fin_cases i <;> norm_num [pt2]) id id (fun _ _ => Iff.rfl) (fun _ _ => Iff.rfl)
  exact ⟨g, g', new, h1, h2, h3⟩

/-- Two intervals in dimension 1 with overlap fraction 1/3. -/
def demoCub2 : CubCover 1 ℚ := ⟨⟨2, some (1 / 3), "flat", 1, none, "disabled"⟩, none⟩

/-- **C90 (violation for rows outside the bounding box).** With cubical covers, a row appended
outside the bounding box moves the hypercubes: here 0 and 2.4 are in one node until the row -2
is appended. -/
theorem C90_cubical_outside_violation :
    ∃ (y z : List (Fin 1 → ℚ)) (out out' : List ℤ) (i j : ℕ),
      CubOK (fun _ => 0) 1 demoCub2.params (1 / 3) ∧ i < y.length ∧ j < y.length ∧
      mapperConnectedComponents id y y (demoCub2.applyStandard (fun _ => 0) fun _ => 0)
        (fun _ => trivialClustering) = .ok out ∧
      mapperConnectedComponents id (y ++ z) (y ++ z)
        (demoCub2.applyStandard (fun _ => 0) fun _ => 0) (fun _ => trivialClustering) = .ok out' ∧
      out[i]? = out[j]? ∧ out'[i]? ≠ out'[j]? :=
  ⟨[fun _ => 0, fun _ => 12 / 5, fun _ => 4], [fun _ => -2], [0, 0, 0], [1, 0, 0, 1], 0, 1,
    ⟨rfl, by norm_num [demoCub2], by norm_num, by decide, Or.inl rfl, le_refl _⟩, by decide,
    by decide, by decide +kernel, by decide +kernel, by decide, by decide⟩

/-- **C90 (violation for nearest neighbours).** With `KNNCover`, two rows that share a node can
be in different components after rows were appended. -/
theorem C90_knn_violation :
    ∃ (y z : List ℤ) (out out' : List ℤ) (i j : ℕ), i < y.length ∧ j < y.length ∧
      mapperConnectedComponents id y y ((demoKnn 2).apply fun _ => 0)
        (fun _ => trivialClustering) = .ok out ∧
      mapperConnectedComponents id (y ++ z) (y ++ z) ((demoKnn 2).apply fun _ => 0)
        (fun _ => trivialClustering) = .ok out' ∧
      out[i]? = out[j]? ∧ out'[i]? ≠ out'[j]? :=
  ⟨[0, 10], [1, 11], [0, 0], [0, 1, 0, 1], 0, 1, by decide, by decide, by decide +kernel,
    by decide +kernel, by decide, by decide⟩

end Verif

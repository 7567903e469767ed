import Verif.Spec.Refine
import Verif.Props.Nerve
import Verif.Props.Cover
import Verif.Proof.Units

/-!
# C94: coarser parameters and coarser graphs

Enlarging the overlap, the radius or the number of neighbours, or merging intervals: does the
graph only get coarser? It does for the standard cubical cover, but not for the covers that choose
centres one after the other.
-/

set_option autoImplicit false
set_option linter.unusedSectionVars false

namespace Verif

variable {S T T' : Type}

/-- **C94 (graph).** If every chart of one cover is contained in a chart of the other, then, with
the trivial clustering, the nodes of the first Mapper graph go to nodes of the second that hold
their points, joined nodes to joined nodes or to the same one; and points in one connected
component of the first are in one connected component of the second. -/
theorem C94_graph (X : List S) (y : List T) (y' : List T') (cover : CoverFn T) (cover' : CoverFn T')
    (charts charts' : List (List ℕ)) (hc : cover y = .ok charts) (hc' : cover' y' = .ok charts')
    (hg : WellFormedCharts X.length charts) (hg' : WellFormedCharts X.length charts')
    (hcov : Covers X.length charts) (hcov' : Covers X.length charts')
    (h : ChartsWithin charts charts') (order order' : List ℤ → List ℤ)
    (ho : ∀ l L, L ∈ order l ↔ L ∈ l) (ho' : ∀ l L, L ∈ order' l ↔ L ∈ l) :
    ∃ f g g' out out', mapperGraph X y cover (fun _ => trivialClustering) = .ok g ∧
      mapperGraph X y' cover' (fun _ => trivialClustering) = .ok g' ∧ Coarsening f g g' ∧
      mapperConnectedComponents order X y cover (fun _ => trivialClustering) = .ok out ∧
      mapperConnectedComponents order' X y' cover' (fun _ => trivialClustering) = .ok out' ∧
      ∀ i j, i < X.length → j < X.length → out[i]? = out[j]? → out'[i]? = out'[j]? := by
  obtain ⟨g, e1, hn⟩ := C75_nerve X y cover charts hc hg
  obtain ⟨g', e1', hn'⟩ := C75_nerve X y' cover' charts' hc' hg'
  obtain ⟨out, e2, _, hl⟩ := C76_cover_chains X y cover charts hc hg hcov order ho
  obtain ⟨out', e2', _, hl'⟩ := C76_cover_chains X y' cover' charts' hc' hg' hcov' order' ho'
  have hmap : ∀ c : ℕ, ∃ c' : ℕ, ∀ ids, charts[c]? = some ids →
      ∃ ids', charts'[c']? = some ids' ∧ ∀ i ∈ ids, i ∈ ids' := by
    intro c
    cases hcc : charts[c]? with
    | none => exact ⟨0, fun ids h => by cases h⟩
    | some ids =>
      obtain ⟨ids', h1, h2⟩ := h ids (List.mem_of_getElem? hcc)
      obtain ⟨c', h3⟩ := List.getElem?_of_mem h1
      exact ⟨c', fun ids0 h0 => by cases h0; exact ⟨ids', h3, h2⟩⟩
  choose φ hφ using hmap
  have hnode : ∀ L, g.IsNode L → ∃ (c : ℕ) (ids ids' : List ℕ), L = c ∧ charts[c]? = some ids ∧
      charts'[φ c]? = some ids' ∧ ∀ i ∈ ids, i ∈ ids' := by
    intro L hL
    obtain ⟨c, hlt, rfl⟩ := (hn.node L).mp hL
    have h1 : charts[c]? = some charts[c] := List.getElem?_eq_getElem hlt
    obtain ⟨ids', h2, h3⟩ := hφ c _ h1
    exact ⟨c, _, ids', rfl, h1, h2, h3⟩
  refine ⟨fun L => (φ L.toNat : ℤ), g, g', out, out', e1, e1', ⟨?_, ?_, ?_⟩, e2, e2', ?_⟩
  · intro L hL
    obtain ⟨c, ids, ids', rfl, h1, h2, h3⟩ := hnode L hL
    exact (hn'.node _).mpr ⟨φ c, getElem?_lt h2, by simp⟩
  · intro L size l hL
    have hL' : g.IsNode L := by
      unfold NxGraph.IsNode
      exact (PyDict.isSome_get? _ _).mp (by rw [hL]; rfl)
    obtain ⟨c, ids, ids', rfl, h1, h2, h3⟩ := hnode L hL'
    obtain ⟨l1, k1, _, k3⟩ := hn.attr c ids h1
    rw [hL] at k1
    cases k1
    obtain ⟨l', k1', _, k3'⟩ := hn'.attr _ ids' h2
    refine ⟨_, l', by simpa using k1', fun i hi => ?_⟩
    exact k3'.mem_iff.mpr (h3 i (k3.mem_iff.mp hi))
  · intro L M hLM
    obtain ⟨_, g2, _, e4, _, hends, _⟩ := C35_graph_edges X y cover _ charts hc
      (fun ids h => (hg ids h).2) (trivial_succeeds X charts)
    rw [e1] at e4
    cases e4
    obtain ⟨_, hL, hM⟩ := hends L M hLM
    obtain ⟨c, ids, ids', rfl, h1, h2, h3⟩ := hnode L hL
    obtain ⟨d, jds, jds', rfl, k1, k2, k3⟩ := hnode M hM
    obtain ⟨_, i, hi, hi'⟩ := (hn.adj c d ids jds h1 k1).mp hLM
    simp only [Int.toNat_natCast]
    by_cases he : φ c = φ d
    · exact .inl (by rw [he])
    · exact .inr ((hn'.adj _ _ ids' jds' h2 k2).mpr ⟨he, i, h3 i hi, k3 i hi'⟩)
  · intro i j hi hj hij
    rw [hl' i j hi hj]
    rw [hl i j hi hj] at hij
    refine Relation.ReflTransGen.mono ?_ i j hij
    rintro a b ⟨ids, hids, ha, hb⟩
    obtain ⟨ids', h1, h2⟩ := h ids hids
    exact ⟨ids', h1, h2 a ha, h2 b hb⟩

section standard
variable {R : Type} [Field R] [LinearOrder R] [IsStrictOrderedRing R] [FloorRing R] {m : ℕ}

/-- A box of a finer grid is contained in the box of the coarser grid around the same point. -/
theorem inBox_mono {lo hi x z : R} {n n' : ℕ} {p p' : R} {c c' : ℤ} (hlt : lo < hi)
    (hn' : 1 ≤ n') (hdvd : n' ∣ n) (hn : 1 ≤ n) (hp : 0 < p) (hpp : p ≤ p') (hp' : p' < 1)
    (h1 : InCell lo hi n x c) (h2 : InCell lo hi n' x c') (hz : InBox lo hi n p c z) :
    InBox lo hi n' p' c' z := by
  obtain ⟨k, rfl⟩ := hdvd
  have hk : 1 ≤ k := by
    rcases Nat.eq_zero_or_pos k with rfl | h
    · simp at hn
    · exact h
  have hkR : (1 : R) ≤ k := by exact_mod_cast hk
  have hnR : (0 : R) < n' := by exact_mod_cast hn'
  obtain ⟨u, hu⟩ : ∃ u, u = (hi - lo) / ((n' * k : ℕ) : R) := ⟨_, rfl⟩
  have hu0 : 0 < u := by
    rw [hu]; exact div_pos (sub_pos.mpr hlt) (by push_cast; exact mul_pos hnR (by linarith))
  have hu' : (hi - lo) / (n' : R) = k * u := by
    rw [hu]; push_cast
    field_simp
  obtain ⟨_, a2, a3, a4⟩ := h1
  obtain ⟨_, b2, b3, b4⟩ := h2
  unfold cellLeft at a3 b3
  unfold cellRight at a4 b4
  rw [← hu] at a3 a4
  rw [hu'] at b3 b4
  have l1 : c' * k ≤ c := by
    have : c' * k < c + 1 := by
      rcases a4 with a4 | ⟨a4, _⟩
      · have h0 : ((c' * k : ℤ) : R) * u < ((c + 1 : ℤ) : R) * u := by push_cast; linarith
        exact_mod_cast lt_of_mul_lt_mul_right h0 hu0.le
      · rw [a4]; push_cast
        have : (0 : ℤ) < k := by exact_mod_cast hk
        nlinarith
    omega
  have l2 : c + 1 ≤ (c' + 1) * k := by
    have : c < (c' + 1) * k := by
      rcases b4 with b4 | ⟨b4, _⟩
      · have h0 : ((c : ℤ) : R) * u < (((c' + 1) * k : ℤ) : R) * u := by push_cast; linarith
        exact_mod_cast lt_of_mul_lt_mul_right h0 hu0.le
      · rw [b4]; push_cast at a2; exact a2
    omega
  have l1R : (c' : R) * k ≤ c := by exact_mod_cast l1
  have l2R : (c : R) + 1 ≤ (c' + 1) * k := by exact_mod_cast l2
  obtain ⟨z1, z2⟩ := hz
  unfold InBox boxWidth cellLeft cellRight
  unfold boxWidth cellLeft at z1
  unfold boxWidth cellRight at z2
  rw [← hu] at z1 z2
  rw [hu']
  have hmar : p * (u / (1 - p)) / 2 ≤ p' * (k * u / (1 - p')) / 2 := by
    have e1 : p / (1 - p) ≤ p' / (1 - p') := by
      rw [div_le_div_iff₀ (by linarith) (by linarith)]; linarith
    have e2 : 0 ≤ p / (1 - p) := div_nonneg hp.le (by linarith)
    have e3 : u ≤ k * u := by nlinarith
    have := mul_le_mul e1 e3 hu0.le (e2.trans e1)
    have f1 : p * (u / (1 - p)) = p / (1 - p) * u := by ring
    have f2 : p' * (k * u / (1 - p')) = p' / (1 - p') * (k * u) := by ring
    rw [f1, f2]; linarith
  constructor
  · nlinarith
  · nlinarith

/-- With at most as much overlap and a multiple of the number of intervals, every chart of a
standard cubical cover is contained in one of the other. -/
theorem standard_within (dflt dflt' : ℕ → R) (c c' : CubCover m R) (p p' : R)
    (H : CubOK dflt m c.params p) (H' : CubOK dflt' m c'.params p')
    (hn : c'.params.nIntervals ∣ c.params.nIntervals) (hp : p ≤ p') (ρ ρ' : ℕ → ℕ) (y : List (Fin m → R)) (a a' : List (List ℕ))
    (ha : c.applyStandard dflt ρ y = .ok a) (ha' : c'.applyStandard dflt' ρ' y = .ok a') :
    ChartsWithin a a' := by
  by_cases hy : y = []
  · subst hy
    intro ids hids
    obtain ⟨a0, ha0, hw, _⟩ := (C22_cubical_cover dflt c p H ρ []).1
    rw [ha] at ha0
    cases ha0
    obtain ⟨hne, hv⟩ := hw ids hids
    obtain ⟨i, hi⟩ := List.exists_mem_of_ne_nil _ hne
    exact absurd (hv.2 i hi) (by simp)
  obtain ⟨lo, hi, hb⟩ := exists_bounds y hy
  obtain ⟨cells, a1, e1, _, hm, hl, _⟩ := applyStandard_ok dflt c ρ y hy p H hb
  obtain ⟨cells', a1', e1', _, hm', hl', _⟩ := applyStandard_ok dflt' c' ρ' y hy p' H' hb
  rw [ha] at e1
  rw [ha'] at e1'
  cases e1
  cases e1'
  intro ids hids
  obtain ⟨k, hk⟩ := List.getElem?_of_mem hids
  obtain ⟨cell, hcell⟩ := lt_getElem? (l := cells) (k := k) (by rw [hl.length_eq]; exact getElem?_lt hk)
  have h1 := (List.forall₂_iff_get.mp hl).2 k (getElem?_lt hcell) (getElem?_lt hk)
  rw [List.get_eq_getElem, List.get_eq_getElem, (List.getElem?_eq_some_iff.mp hcell).2,
    (List.getElem?_eq_some_iff.mp hk).2] at h1
  obtain ⟨x, hx, hxc⟩ := (hm cell).mp (List.mem_of_getElem? hcell)
  -- the coarse cell of the same row
  obtain ⟨_, gr, _, _, _, _, hgr, _⟩ := cubFitted dflt' c' ρ' y hy p' H'
  obtain ⟨rfl, rfl⟩ := hgr.bounds.unique hb
  have hxc' := (isCell_iff hgr H'.intervals x (fun i => (hgr.bounds i).2.2 x hx) _).mpr rfl
  obtain ⟨k', hk'⟩ := List.getElem?_of_mem ((hm' _).mpr ⟨x, hx, hxc'⟩)
  obtain ⟨ids', hids'⟩ := lt_getElem? (l := a') (k := k')
    (by rw [← hl'.length_eq]; exact getElem?_lt hk')
  have h2 := (List.forall₂_iff_get.mp hl').2 k' (getElem?_lt hk') (getElem?_lt hids')
  rw [List.get_eq_getElem, List.get_eq_getElem, (List.getElem?_eq_some_iff.mp hk').2,
    (List.getElem?_eq_some_iff.mp hids').2] at h2
  refine ⟨ids', List.mem_of_getElem? hids', fun i hi => ?_⟩
  obtain ⟨z, hz, hzb⟩ := (h1.1.2 i).mp hi
  refine (h2.1.2 i).mpr ⟨z, hz, fun j hj => ?_⟩
  have hlt : gr.lo j < gr.hi j := by
    have : (0 : R) < 1 / 2 ^ 52 := by positivity
    have h0 : 1 / 2 ^ 52 < gr.hi j - gr.lo j := hj
    linarith
  exact inBox_mono hlt H'.intervals hn H.intervals H.pos hp H'.lt_one ((hxc j).1 hj)
    ((hxc' j).1 hj) (hzb j hj)

/-- **C94 (standard hypercubes).** If the number of intervals is replaced by one of its divisors,
and the overlap fraction by one as large or larger, every hypercube of the standard cubical cover
is contained in one of the new ones; so the Mapper graph with the trivial clustering only gets
coarser, and connected components are never split. -/
theorem C94_standard_partial (dflt dflt' : ℕ → R) (c c' : CubCover m R) (p p' : R)
    (H : CubOK dflt m c.params p) (H' : CubOK dflt' m c'.params p')
    (hn : c'.params.nIntervals ∣ c.params.nIntervals) (hp : p ≤ p') (ρ ρ' : ℕ → ℕ)
    (X : List S) (y : List (Fin m → R)) (hlen : X.length = y.length)
    (order order' : List ℤ → List ℤ) (ho : ∀ l L, L ∈ order l ↔ L ∈ l)
    (ho' : ∀ l L, L ∈ order' l ↔ L ∈ l) :
    ∃ f g g' out out',
      mapperGraph X y (c.applyStandard dflt ρ) (fun _ => trivialClustering) = .ok g ∧
      mapperGraph X y (c'.applyStandard dflt' ρ') (fun _ => trivialClustering) = .ok g' ∧
      Coarsening f g g' ∧
      mapperConnectedComponents order X y (c.applyStandard dflt ρ) (fun _ => trivialClustering) =
        .ok out ∧
      mapperConnectedComponents order' X y (c'.applyStandard dflt' ρ')
        (fun _ => trivialClustering) = .ok out' ∧
      ∀ i j, i < X.length → j < X.length → out[i]? = out[j]? → out'[i]? = out'[j]? := by
  obtain ⟨a, ha, hw, hcov⟩ := (C22_cubical_cover dflt c p H ρ y).1
  obtain ⟨a', ha', hw', hcov'⟩ := (C22_cubical_cover dflt' c' p' H' ρ' y).1
  rw [← hlen] at hw hw' hcov hcov'
  exact C94_graph X y y _ _ a a' ha ha' hw hw' hcov hcov'
    (standard_within dflt dflt' c c' p p' H H' hn hp ρ ρ' y a a' ha ha') order order' ho ho'

end standard

/-! ### Non-vacuity and violations -/

/-- Intervals of one column. -/
def cubOf (n : ℕ) (p : ℚ) : CubCover 1 ℚ := ⟨⟨n, some p, "flat", 1, none, "disabled"⟩, none⟩

theorem cubOf_ok (n : ℕ) (p : ℚ) (hn : 1 ≤ n) (h0 : 0 < p) (h1 : p < 1) :
    CubOK (fun _ => 0) 1 (cubOf n p).params p := ⟨rfl, h0, h1, hn, Or.inl rfl, le_refl 1⟩

/-- Numbers as rows of one column. -/
def column (l : List ℚ) : List (Fin 1 → ℚ) := l.map fun a _ => a

/-- Non-vacuity: from six intervals with overlap `1/4` to three with overlap `1/3`. -/
example : ∃ f g g' out out',
    mapperGraph ([5, 21, 10, 13] : List ℤ) (column [5, 21, 10, 13])
      ((cubOf 6 (1 / 4)).applyStandard (fun _ => 0) fun _ => 0) (fun _ => trivialClustering) =
        .ok g ∧
    mapperGraph ([5, 21, 10, 13] : List ℤ) (column [5, 21, 10, 13])
      ((cubOf 3 (1 / 3)).applyStandard (fun _ => 0) fun _ => 0) (fun _ => trivialClustering) =
        .ok g' ∧ Coarsening f g g' ∧
    mapperConnectedComponents id ([5, 21, 10, 13] : List ℤ) (column [5, 21, 10, 13])
      ((cubOf 6 (1 / 4)).applyStandard (fun _ => 0) fun _ => 0) (fun _ => trivialClustering) =
        .ok out ∧
    mapperConnectedComponents id ([5, 21, 10, 13] : List ℤ) (column [5, 21, 10, 13])
      ((cubOf 3 (1 / 3)).applyStandard (fun _ => 0) fun _ => 0) (fun _ => trivialClustering) =
        .ok out' ∧
    ∀ i j, i < 4 → j < 4 → out[i]? = out[j]? → out'[i]? = out'[j]? :=
  C94_standard_partial (fun _ => 0) (fun _ => 0) (cubOf 6 (1 / 4)) (cubOf 3 (1 / 3)) (1 / 4) (1 / 3)
    (cubOf_ok _ _ (by decide) (by norm_num) (by norm_num))
    (cubOf_ok _ _ (by decide) (by norm_num) (by norm_num)) ⟨2, rfl⟩ (by norm_num) _ _
    ([5, 21, 10, 13] : List ℤ) (column [5, 21, 10, 13]) rfl id id (fun _ _ => Iff.rfl) (fun _ _ => Iff.rfl)

/-- **C94 (balls, violation).** A larger radius can split a connected component: in the rows 0, 40,
15, 24 the last two are in one ball of radius 10, but with radius 20 the balls around the
first two rows cover them all and have no row in common. -/
theorem C94_ball_violation : ∃ (X : List ℤ) (r r' : ℤ) (out out' : List ℤ), 0 < r ∧ r ≤ r' ∧
    BallOK (demoBall r).params ∧ BallOK (demoBall r').params ∧
    mapperConnectedComponents id X X ((demoBall r).apply fun _ => 0) (fun _ => trivialClustering) =
      .ok out ∧
    mapperConnectedComponents id X X ((demoBall r').apply fun _ => 0)
      (fun _ => trivialClustering) = .ok out' ∧
    out[2]? = out[3]? ∧ out'[2]? ≠ out'[3]? :=
  ⟨[0, 40, 15, 24], 10, 20, [0, 1, 2, 2], [0, 1, 0, 1], by decide, by decide, demoBall_ok 10,
    demoBall_ok 20,
    by decide +kernel, by decide +kernel, by decide, by decide⟩

/-- **C94 (proximity hypercubes, violation).** A larger overlap can split a connected component if
hypercubes are only taken around rows not yet covered: of the rows 5, 21, 10, 13 the last two
are in one of four intervals; with overlap `1/2` the interval of the first row covers 10, and
13 is left alone. -/
theorem C94_proximity_violation : ∃ (y : List (Fin 1 → ℚ)) (n : ℕ) (p p' : ℚ) (out out' : List ℤ),
    p ≤ p' ∧ CubOK (fun _ => 0) 1 (cubOf n p).params p ∧
    CubOK (fun _ => 0) 1 (cubOf n p').params p' ∧
    mapperConnectedComponents id y y ((cubOf n p).applyProximity (fun _ => 0) fun _ => 0)
      (fun _ => trivialClustering) = .ok out ∧
    mapperConnectedComponents id y y ((cubOf n p').applyProximity (fun _ => 0) fun _ => 0)
      (fun _ => trivialClustering) = .ok out' ∧
    out[2]? = out[3]? ∧ out'[2]? ≠ out'[3]? :=
  ⟨column [5, 21, 10, 13], 4, 1 / 4, 1 / 2, [0, 1, 2, 2], [0, 1, 0, 2], by norm_num,
    cubOf_ok _ _ (by decide) (by norm_num) (by norm_num),
    cubOf_ok _ _ (by decide) (by norm_num) (by norm_num),
    by decide +kernel, by decide +kernel, by decide, by decide⟩

/-- **C94 (neighbours, violation).** More neighbours can split a connected component, even if no
distances are tied. -/
theorem C94_knn_violation : ∃ (X : List ℤ) (k k' : ℕ) (out out' : List ℤ), k ≤ k' ∧
    KnnOK (demoKnn k).params ∧ KnnOK (demoKnn k').params ∧
    (∀ q ∈ X, ∀ (i j : ℕ) xi xj, X[i]? = some xi → X[j]? = some xj →
      absDist q xi = absDist q xj → i = j) ∧
    mapperConnectedComponents id X X ((demoKnn k).apply fun _ => 0) (fun _ => trivialClustering) =
      .ok out ∧
    mapperConnectedComponents id X X ((demoKnn k').apply fun _ => 0)
      (fun _ => trivialClustering) = .ok out' ∧
    out[2]? = out[3]? ∧ out'[2]? ≠ out'[3]? := by
  refine ⟨[12, 53, 49, 43, 52, 1], 2, 3, [0, 2, 2, 2, 2, 0], [0, 1, 1, 0, 1, 0], by decide, demoKnn_ok 2 (by decide),
    demoKnn_ok 3 (by decide), ?_, by decide +kernel, by decide +kernel, by decide, by decide⟩
  have h : ∀ q ∈ ([12, 53, 49, 43, 52, 1] : List ℤ), ∀ i < 6, ∀ j < 6,
      ([12, 53, 49, 43, 52, 1] : List ℤ)[i]?.map (absDist q) =
        ([12, 53, 49, 43, 52, 1] : List ℤ)[j]?.map (absDist q) → i = j := by decide
  intro q hq i j xi xj hi hj he
  exact h q hq i (getElem?_lt hi) j (getElem?_lt hj) (by rw [hi, hj]; simp [he])

end Verif

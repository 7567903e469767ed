import Verif.Spec.Coarser
import Verif.Props.Coarser
import Verif.Props.Gaps

/-!
# C129: single linkage in the charts, single linkage of the data

With single linkage as the clustering, how do the connected components of the Mapper graph compare
to the single linkage clusters of the whole dataset?
-/

set_option autoImplicit false
set_option linter.unusedSectionVars false

namespace Verif

variable {S T Q : Type}

/-- Points linked within a chart are linked. -/
theorem linked_of_chart [LE Q] {d : S → S → Q} {r : Q} {X : List S} {ids : List ℕ}
    (hlt : ∀ i ∈ ids, i < X.length) {a b : ℕ}
    (h : Relation.EqvGen (CloseBy d r (pointsOf X ids)) a b) :
    Relation.EqvGen (CloseBy d r X) (ids.getD a 0) (ids.getD b 0) := by
  have pt : ∀ a x, (pointsOf X ids)[a]? = some x → X[ids.getD a 0]? = some x := by
    intro a x hx
    rw [pointsOf_eq hlt] at hx
    cases hi : ids[a]? with
    | none => rw [hi] at hx; cases hx
    | some i => rw [hi] at hx; simpa [List.getD, hi] using hx
  induction h with
  | rel a b h =>
    obtain ⟨x, z, hx, hz, hd⟩ := h
    exact .rel _ _ ⟨x, z, pt a x hx, pt b z hz, hd⟩
  | refl a => exact .refl _
  | symm a b _ ih => exact .symm _ _ ih
  | trans a b c _ _ ih ih' => exact .trans _ _ _ ih ih'

/-- A chart's clusters under single linkage. -/
theorem linkage_label [LE Q] {d : S → S → Q} {r : Q} {X : List S} {charts : List (List ℕ)}
    {clust : ClustFn S} (hg : GoodCharts X.length charts) (hs : ClusteringSucceeds X charts clust)
    (hl : SingleLinkage d r clust) {ids : List ℕ} (hids : ids ∈ charts) {i : ℕ} (hi : i ∈ ids) :
    Clustered X charts clust i i := by
  obtain ⟨c, hc⟩ := List.getElem?_of_mem hids
  obtain ⟨a, ha⟩ := List.getElem?_of_mem hi
  obtain ⟨lbls, hC⟩ := hs c ids hc
  obtain ⟨hlen, hpos, _⟩ := hl c _ lbls hC.2
  obtain ⟨l, hll⟩ := lt_getElem? (l := lbls) (k := a)
    (by rw [hlen, pointsOf_length (hg ids hids).2]; exact getElem?_lt ha)
  exact ⟨c, l, hpos l (List.mem_of_getElem? hll), ⟨ids, lbls, a, hC, ha, hll⟩,
    ⟨ids, lbls, a, hC, ha, hll⟩⟩

/-- **C129 (nothing is joined).** For every cover of all points, and single linkage with threshold
`r` as the clustering: no point is noise, and points in one connected component of the Mapper graph
are linked, in the dataset, by steps of at most `r`. So Mapper never joins what single linkage of
the whole dataset keeps apart. -/
theorem C129_never_joins [LE Q] (d : S → S → Q) (r : Q) (X : List S) (y : List T) (cover : CoverFn T)
    (charts : List (List ℕ)) (hc : cover y = .ok charts) (hg : GoodCharts X.length charts)
    (hcov : Covers X.length charts) (clust : ClustFn S) (hs : ClusteringSucceeds X charts clust)
    (hl : SingleLinkage d r clust) (order : List ℤ → List ℤ) (ho : ∀ l L, L ∈ order l ↔ L ∈ l) :
    ∃ out, mapperConnectedComponents order X y cover clust = .ok out ∧ out.length = X.length ∧
      ∀ i j, i < X.length → j < X.length → out[i]? ≠ some (-1) ∧
        (out[i]? = out[j]? → Relation.EqvGen (CloseBy d r X) i j) := by
  obtain ⟨out, e, hlen, hneg, hch⟩ := C76_chains X y cover clust charts hc hg hs order ho
  have hcl : ∀ i, i < X.length → Clustered X charts clust i i := fun i hi => by
    obtain ⟨ids, h1, h2⟩ := hcov i hi
    exact linkage_label hg hs hl h1 h2
  refine ⟨out, e, hlen, fun i j hi hj => ⟨fun h => (hneg i hi).mp h (hcl i hi), fun h => ?_⟩⟩
  have hL := (hch i j (hcl i hi) (hcl j hj)).mp h
  clear h hj
  induction hL with
  | refl => exact .refl _
  | tail _ hstep ih =>
    refine .trans _ _ _ ih ?_
    obtain ⟨c, l, _, ⟨ids, lbls, a, hC, ha, hla⟩, ⟨ids', lbls', b, hC', hb, hlb⟩⟩ := hstep
    obtain ⟨rfl, rfl⟩ := hC.unique hC'
    have := linked_of_chart (hg ids (List.mem_of_getElem? hC.1)).2
      (((hl c _ lbls hC.2).2.2 a b l l hla hlb).mp rfl)
    simpa [List.getD, ha, hb] using this

/-- **C129 (exactness).** If, moreover, any two points at distance at most `r` are in a common chart,
the connected components of the Mapper graph are exactly the single linkage clusters of the whole
dataset. -/
theorem C129_exact [LE Q] (d : S → S → Q) (r : Q) (X : List S) (y : List T) (cover : CoverFn T)
    (charts : List (List ℕ)) (hc : cover y = .ok charts) (hg : GoodCharts X.length charts)
    (hcov : Covers X.length charts) (hleb : ∀ i j, CloseBy d r X i j → InOneChart charts i j)
    (clust : ClustFn S) (hs : ClusteringSucceeds X charts clust) (hl : SingleLinkage d r clust)
    (order : List ℤ → List ℤ) (ho : ∀ l L, L ∈ order l ↔ L ∈ l) :
    ∃ out, mapperConnectedComponents order X y cover clust = .ok out ∧ out.length = X.length ∧
      ∀ i j, i < X.length → j < X.length → out[i]? ≠ some (-1) ∧
        (out[i]? = out[j]? ↔ Relation.EqvGen (CloseBy d r X) i j) := by
  obtain ⟨out, e, hlen, h⟩ := C129_never_joins d r X y cover charts hc hg hcov clust hs hl order ho
  obtain ⟨out2, e2, _, _, hch⟩ := C76_chains X y cover clust charts hc hg hs order ho
  rw [e] at e2; cases e2
  refine ⟨out, e, hlen, fun i j hi hj => ⟨(h i j hi hj).1, (h i j hi hj).2, fun hE => ?_⟩⟩
  clear hi hj
  induction hE with
  | rel i j hij =>
    obtain ⟨ids, hids, h1, h2⟩ := hleb i j hij
    refine (hch i j (linkage_label hg hs hl hids h1) (linkage_label hg hs hl hids h2)).mpr
      (.single ?_)
    obtain ⟨c, hc'⟩ := List.getElem?_of_mem hids
    obtain ⟨a, ha⟩ := List.getElem?_of_mem h1
    obtain ⟨b, hb⟩ := List.getElem?_of_mem h2
    obtain ⟨lbls, hC⟩ := hs c ids hc'
    obtain ⟨hlb, hpos, hiff⟩ := hl c _ lbls hC.2
    have hlt := (hg ids hids).2
    obtain ⟨l, hla⟩ := lt_getElem? (l := lbls) (k := a)
      (by rw [hlb, pointsOf_length hlt]; exact getElem?_lt ha)
    obtain ⟨l', hlb'⟩ := lt_getElem? (l := lbls) (k := b)
      (by rw [hlb, pointsOf_length hlt]; exact getElem?_lt hb)
    obtain ⟨x, z, hx, hz, hd⟩ := hij
    have : l = l' := (hiff a b l l' hla hlb').mpr (.rel _ _ ⟨x, z,
      by rw [pointsOf_eq hlt, ha]; exact hx, by rw [pointsOf_eq hlt, hb]; exact hz, hd⟩)
    subst this
    exact ⟨c, l, hpos l (List.mem_of_getElem? hla), ⟨ids, lbls, a, hC, ha, hla⟩,
      ⟨ids, lbls, b, hC, hb, hlb'⟩⟩
  | refl i => rfl
  | symm i j _ ih => exact ih.symm
  | trans i j k _ _ ih ih' => exact ih.trans ih'

section standard
variable {R : Type} [Field R] [LinearOrder R] [IsStrictOrderedRing R] [FloorRing R] {m : ℕ}

/-- **C129 (standard hypercubes).** With `CubicalCover(algorithm="standard")` and single linkage with
threshold `r`: if the lens takes points at distance at most `r` to rows which differ, in every column
that is not constant, by less than half of the length in which adjacent intervals overlap, then the
connected components of the Mapper graph are exactly the single linkage clusters of the dataset. -/
theorem C129_standard_partial [LE Q] (d : S → S → Q) (r : Q) (dflt : ℕ → R) (c : CubicalCover m R)
    (p : R) (H : CubOK dflt m c.params p) (ha : c.algorithm = "standard") (ρ : ℕ → ℕ) (X : List S)
    (y : List (Fin m → R)) (hlen : X.length = y.length) (hy : y ≠ []) (lo hi : Fin m → R)
    (hb : IsBounds y lo hi)
    (hlens : ∀ i j, CloseBy d r X i j →
      RowsRelated y (HalfOverlapApart lo hi c.params.nIntervals p) i j)
    (clust : ClustFn S) (htot : ∀ k xs, ∃ lbls, clust k xs = .ok lbls) (hl : SingleLinkage d r clust)
    (order : List ℤ → List ℤ) (ho : ∀ l L, L ∈ order l ↔ L ∈ l) :
    ∃ out, mapperConnectedComponents order X y (c.apply dflt ρ) clust = .ok out ∧
      out.length = X.length ∧ ∀ i j, i < X.length → j < X.length → out[i]? ≠ some (-1) ∧
        (out[i]? = out[j]? ↔ Relation.EqvGen (CloseBy d r X) i j) := by
  obtain ⟨charts, e, h1, h2, h3⟩ := C114_standard_charts_partial dflt c p H ha ρ y hy lo hi hb
  rw [← hlen] at h1 h2
  refine C129_exact d r X y _ charts e (fun ids h => (h1 ids h).2) h2 ?_ clust
    (fun k ids h => (htot k (pointsOf X ids)).imp fun _ e => ⟨h, e⟩) hl order ho
  intro i j hij
  obtain ⟨a, b, hi', hj', hab⟩ := hlens i j hij
  obtain ⟨chart, h4, h5⟩ := h3 i a hi'
  refine ⟨chart, h4, h5 i a hi' fun k hk => ?_, h5 j b hj' hab⟩
  have := (abs_nonneg _).trans_lt (hab k hk)
  simpa using this

end standard

/-! ### Non-vacuity and violation -/

/-- Non-vacuity: the two intervals over `[0, 12]` overlap in a length of 6, the points 0, 2 and 4 are
linked by steps of 2, and 12 is apart. -/
example : ∃ out, mapperConnectedComponents id ([0, 2, 12, 4] : List ℤ) (column [0, 2, 12, 4])
      ((⟨(cubOf 2 (1 / 2)).params, "standard", none⟩ : CubicalCover 1 ℚ).apply (fun _ => 0) fun _ => 0)
      (oneLinked absDist 2) = .ok out ∧ out.length = 4 ∧
    ∀ i j, i < 4 → j < 4 → out[i]? ≠ some (-1) ∧
      (out[i]? = out[j]? ↔ Relation.EqvGen (CloseBy absDist 2 [0, 2, 12, 4]) i j) := by
  have hb : IsBounds (column [0, 2, 12, 4]) (fun _ => 0) (fun _ => 12) := by
    intro i
    refine ⟨⟨fun _ => 0, ?_, rfl⟩, ⟨fun _ => 12, ?_, rfl⟩, ?_⟩
    · simp [column]
    · simp [column]
    · intro x hx
      simp only [column, List.map_cons, List.map_nil, List.mem_cons, List.not_mem_nil, or_false] at hx
      rcases hx with rfl | rfl | rfl | rfl <;> norm_num
  refine C129_standard_partial absDist 2 (fun _ => 0)
    ⟨(cubOf 2 (1 / 2)).params, "standard", none⟩ (1 / 2)
    (cubOf_ok _ _ (by decide) (by norm_num) (by norm_num)) rfl _ ([0, 2, 12, 4] : List ℤ)
    (column [0, 2, 12, 4]) rfl (by simp [column]) (fun _ => 0) (fun _ => 12) hb ?_ _
    (fun _ _ => ⟨_, rfl⟩) (oneLinked_linkage _ _) id (fun _ _ => Iff.rfl)
  rintro i j ⟨x, z, hx, hz, hd⟩
  have hcol : column [0, 2, 12, 4] = List.map (fun (a : ℤ) (_ : Fin 1) => (a : ℚ)) [0, 2, 12, 4] := by
    simp [column]
  refine ⟨fun _ => x, fun _ => z, ?_, ?_, ?_⟩
  · rw [hcol, List.getElem?_map, hx]; rfl
  · rw [hcol, List.getElem?_map, hz]; rfl
  · intro k _
    have hd' : |(x : ℚ) - z| ≤ 2 := by
      unfold absDist at hd
      exact_mod_cast hd
    refine lt_of_le_of_lt hd' ?_
    simp only [overlapLength, boxWidth, cubOf]
    norm_num

/-- **C129 (balls, violation).** With `BallCover` the components can be smaller than the single
linkage clusters, although the radius is ten times the threshold: of the rows 0, 200, 95 and 105 the
last two are at distance 10, but in different components, whatever the clustering. -/
theorem C129_ball_violation : ∃ (X : List ℤ) (i j : ℕ), CloseBy absDist 10 X i j ∧
    BallOK (demoBall 100).params ∧ ∀ clust : ClustFn ℤ, (∀ k xs, ∃ lbls, clust k xs = .ok lbls) →
      SingleLinkage absDist 10 clust →
      ∃ out, mapperConnectedComponents id X X ((demoBall 100).apply fun n => n) clust = .ok out ∧
        out[i]? ≠ out[j]? := by
  refine ⟨[0, 200, 95, 105], 2, 3, ⟨95, 105, rfl, rfl, by decide⟩, demoBall_ok 100,
    fun clust htot hl => ?_⟩
  obtain ⟨charts, _, h1, h2, h3, _⟩ := C18_ball_cover (demoBall 100) (demoBall_ok 100) (by decide)
    (fun n => n) [0, 200, 95, 105]
  have hg : GoodCharts 4 charts := fun ids h => (h2 ids h).2
  have hs : ClusteringSucceeds [0, 200, 95, 105] charts clust := fun k ids h =>
    (htot k (pointsOf _ ids)).imp fun _ e => ⟨h, e⟩
  obtain ⟨_, _, _, out, out', _, _, _, _, e3, e4, h4⟩ := C127_trivial ([0, 200, 95, 105] : List ℤ)
    ([0, 200, 95, 105] : List ℤ) _ charts h1 hg clust hs id id (fun _ _ => Iff.rfl) fun _ _ => Iff.rfl
  obtain ⟨out2, e5, _, h5⟩ := C129_never_joins absDist 10 ([0, 200, 95, 105] : List ℤ)
    ([0, 200, 95, 105] : List ℤ) _ charts h1 hg h3 clust hs hl id fun _ _ => Iff.rfl
  rw [e3] at e5; cases e5
  refine ⟨out, e3, fun he => ?_⟩
  have h6 := h4.together 2 3 (by decide) (by decide) he (h5 2 3 (by decide) (by decide)).1
  have e7 : mapperConnectedComponents id ([0, 200, 95, 105] : List ℤ) [0, 200, 95, 105]
      ((demoBall 100).apply fun n => n) (fun _ => trivialClustering) = .ok [0, 1, 0, 1] := by
    decide +kernel
  rw [e4] at e7
  cases e7
  exact absurd h6 (by decide)

end Verif

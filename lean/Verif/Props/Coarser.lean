import Verif.Spec.Coarser
import Verif.Proof.Coarser
import Verif.Props.Refine

/-!
# C127: coarser clusterings and coarser graphs

C94 compares covers under the trivial clustering. Here the clustering is any one, and may also be
replaced by a coarser one.
-/

set_option autoImplicit false
set_option linter.unusedSectionVars false

namespace Verif

variable {S T T' : Type}

/-- **C127 (one cover).** On the same cover, let the second clustering put together at least what
the first puts together, chart by chart. Then the nodes of the first Mapper graph go to nodes of
the second that hold their points, nodes joined by an edge go to nodes joined by an edge, points in
one connected component stay in one, and no point becomes noise. -/
theorem C127_same_cover (X : List S) (y : List T) (cover : CoverFn T) (charts : List (List ℕ))
    (hc : cover y = .ok charts) (hg : GoodCharts X.length charts) (clust clust' : ClustFn S)
    (hs : ClusteringSucceeds X charts clust) (hs' : ClusteringSucceeds X charts clust')
    (h : CoarserInPlace clust clust') (order order' : List ℤ → List ℤ)
    (ho : ∀ l L, L ∈ order l ↔ L ∈ l) (ho' : ∀ l L, L ∈ order' l ↔ L ∈ l) :
    ∃ f g g' out out', mapperGraph X y cover clust = .ok g ∧
      mapperGraph X y cover clust' = .ok g' ∧ Coarsening f g g' ∧
      (∀ L M, g.Adj L M → g'.Adj (f L) (f M)) ∧
      mapperConnectedComponents order X y cover clust = .ok out ∧
      mapperConnectedComponents order' X y cover clust' = .ok out' ∧
      CoarserComponents X.length out out' := by
  obtain ⟨f, g, g', out, out', e1, e2, h1, e3, e4, h2, h3⟩ :=
    (follows_same h hg hs').result hc hc hg hg hs hs' order order' ho ho'
  exact ⟨f, g, g', out, out', e1, e2, h1, h3 fun _ _ h => h, e3, e4, h2⟩

/-- **C127 (no clustering).** The graph obtained with any clustering lies over the graph obtained
without one: its nodes are parts of charts, its edges join parts of charts that meet, its connected
components are parts of those of the cover. -/
theorem C127_trivial (X : List S) (y : List T) (cover : CoverFn T) (charts : List (List ℕ))
    (hc : cover y = .ok charts) (hg : GoodCharts X.length charts) (clust : ClustFn S)
    (hs : ClusteringSucceeds X charts clust) (order order' : List ℤ → List ℤ)
    (ho : ∀ l L, L ∈ order l ↔ L ∈ l) (ho' : ∀ l L, L ∈ order' l ↔ L ∈ l) :
    ∃ f g g' out out', mapperGraph X y cover clust = .ok g ∧
      mapperGraph X y cover (fun _ => trivialClustering) = .ok g' ∧ Coarsening f g g' ∧
      (∀ L M, g.Adj L M → g'.Adj (f L) (f M)) ∧
      mapperConnectedComponents order X y cover clust = .ok out ∧
      mapperConnectedComponents order' X y cover (fun _ => trivialClustering) = .ok out' ∧
      CoarserComponents X.length out out' := by
  refine C127_same_cover X y cover charts hc hg clust _ hs (trivial_succeeds X charts) ?_ order
    order' ho ho'
  intro k xs lbls lbls' _ e m m' l hm hm' _ _ _
  cases e
  exact ⟨0, by simp [hm], by simp [hm'], le_refl 0⟩

/-- **C127 (two covers).** If every chart of one cover is contained in a chart of the other, and
points that the first clustering puts together are also put together by the second, among more
points, then the first Mapper graph goes to the second: nodes to nodes that hold their points,
joined nodes to joined nodes or to the same one; points in one connected component stay in one,
and no point becomes noise. -/
theorem C127_graph (X : List S) (y : List T) (y' : List T') (cover : CoverFn T) (cover' : CoverFn T')
    (charts charts' : List (List ℕ)) (hc : cover y = .ok charts) (hc' : cover' y' = .ok charts')
    (hg : GoodCharts X.length charts) (hg' : GoodCharts X.length charts')
    (h : ChartsWithin charts charts') (clust clust' : ClustFn S)
    (hs : ClusteringSucceeds X charts clust) (hs' : ClusteringSucceeds X charts' clust')
    (hcl : CoarserClustering clust clust') (order order' : List ℤ → List ℤ)
    (ho : ∀ l L, L ∈ order l ↔ L ∈ l) (ho' : ∀ l L, L ∈ order' l ↔ L ∈ l) :
    ∃ f g g' out out', mapperGraph X y cover clust = .ok g ∧
      mapperGraph X y' cover' clust' = .ok g' ∧ Coarsening f g g' ∧
      mapperConnectedComponents order X y cover clust = .ok out ∧
      mapperConnectedComponents order' X y' cover' clust' = .ok out' ∧
      CoarserComponents X.length out out' := by
  have hmap : ∀ c : ℕ, ∃ c' : ℕ, ∀ ids, charts[c]? = some ids →
      ∃ ids', charts'[c']? = some ids' ∧ ∀ i ∈ ids, i ∈ ids' := by
    intro c
    cases hcc : charts[c]? with
    | none => exact ⟨0, fun ids h => by cases h⟩
    | some ids =>
      obtain ⟨ids', h1, h2⟩ := h ids (List.mem_of_getElem? hcc)
      obtain ⟨c', h3⟩ := List.getElem?_of_mem h1
      exact ⟨c', fun ids0 h0 => by cases h0; exact ⟨ids', h3, h2⟩⟩
  choose κ hκ using hmap
  obtain ⟨f, g, g', out, out', e1, e2, h1, e3, e4, h2, _⟩ :=
    (follows_within hcl hg hg' hs' hκ).result hc hc' hg hg' hs hs' order order' ho ho'
  exact ⟨f, g, g', out, out', e1, e2, h1, e3, e4, h2⟩

section linkage
variable {R : Type}

/-- Single linkage with a larger threshold is coarser, also among more points. -/
theorem linkage_coarser [Preorder R] {d : S → S → R} {r r' : R} (hr : r ≤ r')
    {clust clust' : ClustFn S} (h : SingleLinkage d r clust) (h' : SingleLinkage d r' clust') :
    CoarserClustering clust clust' := by
  intro k k' xs xs' lbls lbls' π hA e e' m m' l hm hm' hl hl' h0
  obtain ⟨hlen, _, hiff⟩ := h k xs lbls e
  obtain ⟨hlen', hpos', hiff'⟩ := h' k' xs' lbls' e'
  have hch := (hiff m m' l l hl hl').mp rfl
  have hmono : Relation.EqvGen (CloseBy d r' xs') (π m) (π m') := by
    clear hl hl' hm hm'
    induction hch with
    | rel a b hab =>
      obtain ⟨x, z, hx, hz, hd⟩ := hab
      refine .rel _ _ ⟨x, z, ?_, ?_, hd.trans hr⟩
      · rw [(hA.entry a (getElem?_lt hx)).2, hx]
      · rw [(hA.entry b (getElem?_lt hz)).2, hz]
    | refl a => exact .refl _
    | symm a b _ ih => exact .symm _ _ ih
    | trans a b c _ _ ih ih' => exact .trans _ _ _ ih ih'
  obtain ⟨l1, h1⟩ := lt_getElem? (l := lbls') (k := π m) (by rw [hlen']; exact (hA.entry m hm).1)
  obtain ⟨l2, h2⟩ := lt_getElem? (l := lbls') (k := π m') (by rw [hlen']; exact (hA.entry m' hm').1)
  have := (hiff' _ _ l1 l2 h1 h2).mpr hmono
  subst this
  exact ⟨l1, h1, h2, hpos' l1 (List.mem_of_getElem? h1)⟩

variable [Field R] [LinearOrder R] [IsStrictOrderedRing R] [FloorRing R] {m : ℕ}

/-- **C127 (single linkage on standard hypercubes).** If the number of intervals is replaced by one
of its divisors, the overlap fraction by one as large or larger, and the threshold of a single
linkage clustering by one as large or larger, the Mapper graph only gets coarser and connected
components are never split. -/
theorem C127_standard_linkage {Q : Type} [Preorder Q] (dflt dflt' : ℕ → R) (c c' : CubCover m R)
    (p p' : R) (H : CubOK dflt m c.params p) (H' : CubOK dflt' m c'.params p')
    (hn : c'.params.nIntervals ∣ c.params.nIntervals) (hp : p ≤ p') (ρ ρ' : ℕ → ℕ)
    (X : List S) (y : List (Fin m → R)) (hlen : X.length = y.length)
    (d : S → S → Q) (r r' : Q) (hr : r ≤ r') (clust clust' : ClustFn S)
    (hl : SingleLinkage d r clust) (hl' : SingleLinkage d r' clust')
    (htot : ∀ k xs, ∃ lbls, clust k xs = .ok lbls) (htot' : ∀ k xs, ∃ lbls, clust' k xs = .ok lbls)
    (order order' : List ℤ → List ℤ) (ho : ∀ l L, L ∈ order l ↔ L ∈ l)
    (ho' : ∀ l L, L ∈ order' l ↔ L ∈ l) :
    ∃ f g g' out out', mapperGraph X y (c.applyStandard dflt ρ) clust = .ok g ∧
      mapperGraph X y (c'.applyStandard dflt' ρ') clust' = .ok g' ∧ Coarsening f g g' ∧
      mapperConnectedComponents order X y (c.applyStandard dflt ρ) clust = .ok out ∧
      mapperConnectedComponents order' X y (c'.applyStandard dflt' ρ') clust' = .ok out' ∧
      ∀ i j, i < X.length → j < X.length → out[i]? = out[j]? → out'[i]? = out'[j]? := by
  obtain ⟨a, ha, hw, hcov⟩ := (C22_cubical_cover dflt c p H ρ y).1
  obtain ⟨a', ha', hw', _⟩ := (C22_cubical_cover dflt' c' p' H' ρ' y).1
  rw [← hlen] at hw hw' hcov
  have hg : GoodCharts X.length a := fun ids h => (hw ids h).2
  have hg' : GoodCharts X.length a' := fun ids h => (hw' ids h).2
  have hs : ClusteringSucceeds X a clust := fun k ids h =>
    (htot k (pointsOf X ids)).imp fun _ e => ⟨h, e⟩
  have hs' : ClusteringSucceeds X a' clust' := fun k ids h =>
    (htot' k (pointsOf X ids)).imp fun _ e => ⟨h, e⟩
  obtain ⟨f, g, g', out, out', e1, e2, h1, e3, e4, h2⟩ := C127_graph X y y _ _ a a' ha ha' hg hg'
    (standard_within dflt dflt' c c' p p' H H' hn hp ρ ρ' y a a' ha ha') clust clust' hs hs'
    (linkage_coarser hr hl hl') order order' ho ho'
  refine ⟨f, g, g', out, out', e1, e2, h1, e3, e4, fun i j hi hj hij => ?_⟩
  refine h2.together i j hi hj hij fun hno => ?_
  obtain ⟨itm, off, e5, _, _, h3, _⟩ := C32_labels_faithful X y _ clust a ha hg hs
  obtain ⟨itm3, g3, out3, e6, _, e7, _, hneg, _⟩ :=
    C36_connected_components X y _ clust a ha hg hs order ho
  rw [e5] at e6; cases e6
  rw [e3] at e7; cases e7
  obtain ⟨ids, hids, hiids⟩ := hcov i hi
  obtain ⟨k, hk⟩ := List.getElem?_of_mem hids
  obtain ⟨b, hb⟩ := List.getElem?_of_mem hiids
  obtain ⟨lbls, hC⟩ := hs k ids hk
  obtain ⟨hlb, hpos, _⟩ := hl k _ lbls hC.2
  obtain ⟨l, hll⟩ := lt_getElem? (l := lbls) (k := b)
    (by rw [hlb, pointsOf_length (hg ids hids).2]; exact getElem?_lt hb)
  exact (hneg i hi).mp hno _ ((h3 i _).mpr
    ⟨k, l, ⟨ids, lbls, b, hC, hb, hll⟩, hpos l (List.mem_of_getElem? hll), rfl⟩)

end linkage

/-! ### Non-vacuity -/

/-- A single linkage clustering, for every distance and threshold: the label of a point is the
position of a point chosen among those linked to it. -/
noncomputable def oneLinked {R : Type} [LE R] (d : S → S → R) (r : R) : ClustFn S := fun _ xs =>
  .ok ((List.range xs.length).map fun m => (((Quot.mk (CloseBy d r xs) m).out : ℕ) : ℤ))

theorem oneLinked_linkage {R : Type} [LE R] (d : S → S → R) (r : R) :
    SingleLinkage d r (oneLinked d r) := by
  intro k xs lbls e
  cases e
  refine ⟨by simp, fun l hl => ?_, fun a b l l' hl hl' => ?_⟩
  · obtain ⟨n, _, rfl⟩ := List.mem_map.mp hl
    exact Int.natCast_nonneg _
  · rw [List.getElem?_map, Option.map_eq_some_iff] at hl hl'
    obtain ⟨a', ha, rfl⟩ := hl
    obtain ⟨b', hb, rfl⟩ := hl'
    obtain ⟨_, rfl⟩ := List.getElem?_eq_some_iff.mp ha
    obtain ⟨_, rfl⟩ := List.getElem?_eq_some_iff.mp hb
    simp only [List.getElem_range, Int.natCast_inj]
    constructor
    · intro h
      refine Quot.eqvGen_exact ?_
      rw [← Quot.out_eq (Quot.mk (CloseBy d r xs) a), ← Quot.out_eq (Quot.mk (CloseBy d r xs) b), h]
    · intro h
      rw [Quot.eqvGen_sound h]

/-- Non-vacuity: from six intervals to three and from threshold 2 to 4. -/
example : ∃ f g g' out out',
    mapperGraph ([5, 21, 10, 13] : List ℤ) (column [5, 21, 10, 13])
      ((cubOf 6 (1 / 4)).applyStandard (fun _ => 0) fun _ => 0) (oneLinked absDist 2) = .ok g ∧
    mapperGraph ([5, 21, 10, 13] : List ℤ) (column [5, 21, 10, 13])
      ((cubOf 3 (1 / 3)).applyStandard (fun _ => 0) fun _ => 0) (oneLinked absDist 4) = .ok g' ∧
    Coarsening f g g' ∧
    mapperConnectedComponents id ([5, 21, 10, 13] : List ℤ) (column [5, 21, 10, 13])
      ((cubOf 6 (1 / 4)).applyStandard (fun _ => 0) fun _ => 0) (oneLinked absDist 2) = .ok out ∧
    mapperConnectedComponents id ([5, 21, 10, 13] : List ℤ) (column [5, 21, 10, 13])
      ((cubOf 3 (1 / 3)).applyStandard (fun _ => 0) fun _ => 0) (oneLinked absDist 4) =
        .ok out' ∧
    ∀ i j, i < 4 → j < 4 → out[i]? = out[j]? → out'[i]? = out'[j]? :=
  C127_standard_linkage (fun _ => 0) (fun _ => 0) (cubOf 6 (1 / 4)) (cubOf 3 (1 / 3)) (1 / 4)
    (1 / 3) (cubOf_ok _ _ (by decide) (by norm_num) (by norm_num))
    (cubOf_ok _ _ (by decide) (by norm_num) (by norm_num)) ⟨2, rfl⟩ (by norm_num) _ _
    ([5, 21, 10, 13] : List ℤ) (column [5, 21, 10, 13]) rfl absDist 2 4 (by decide) _ _
    (oneLinked_linkage _ _) (oneLinked_linkage _ _) (fun _ _ => ⟨_, rfl⟩)
    (fun _ _ => ⟨_, rfl⟩) id id (fun _ _ => Iff.rfl) (fun _ _ => Iff.rfl)

/-- Two clusters, of the points up to the middle of the range and beyond it. -/
def aroundMiddle : ClustFn ℤ := fun _ xs =>
  .ok (xs.map fun x => if (xs.foldl min x) + (xs.foldl max x) < 2 * x then 1 else 0)

/-- Non-vacuity of the case of one cover: the clustering around the middle is finer than none. -/
example : CoarserInPlace aroundMiddle (fun _ => trivialClustering) ∧
    ClusteringSucceeds [0, 4, 5, 9] [[0, 1, 2], [1, 2, 3]] aroundMiddle ∧
    GoodCharts 4 [[0, 1, 2], [1, 2, 3]] ∧
    mapperConnectedComponents id [0, 4, 5, 9] [0, 4, 5, 9]
      (fun _ : List ℤ => .ok [[0, 1, 2], [1, 2, 3]]) aroundMiddle = .ok [0, 1, 1, 3] ∧
    mapperConnectedComponents id [0, 4, 5, 9] [0, 4, 5, 9]
      (fun _ : List ℤ => .ok [[0, 1, 2], [1, 2, 3]]) (fun _ => trivialClustering) =
        .ok [0, 0, 0, 0] := by
  refine ⟨?_, fun c ids h => ⟨_, h, rfl⟩, by unfold GoodCharts; decide, by decide +kernel,
    by decide +kernel⟩
  intro k xs lbls lbls' _ e m m' l hm hm' _ _ _
  cases e
  exact ⟨0, by simp [hm], by simp [hm'], le_refl 0⟩

/-- **C127 (other clusterings, violation).** The condition on the clustering is needed: a clustering
that looks for a given number of clusters may separate, among more points, those it puts together.
Merging two intervals into one then splits a connected component: of the rows 0, 4, 5, 9 the second
and the third are together in each of two intervals, but not in the interval of all four. -/
theorem C127_violation : ∃ (X : List ℤ) (y : List (Fin 1 → ℚ)) (n n' : ℕ) (p : ℚ)
    (clust : ClustFn ℤ) (out out' : List ℤ), n' ∣ n ∧ (∀ k xs, ∃ lbls, clust k xs = .ok lbls) ∧
    CubOK (fun _ => 0) 1 (cubOf n p).params p ∧ CubOK (fun _ => 0) 1 (cubOf n' p).params p ∧
    mapperConnectedComponents id X y ((cubOf n p).applyStandard (fun _ => 0) fun _ => 0) clust =
      .ok out ∧
    mapperConnectedComponents id X y ((cubOf n' p).applyStandard (fun _ => 0) fun _ => 0) clust =
      .ok out' ∧
    out[1]? = out[2]? ∧ out'[1]? ≠ out'[2]? :=
  ⟨[0, 4, 5, 9], column [0, 4, 5, 9], 2, 1, 1 / 4, aroundMiddle, [2, 0, 0, 1], [0, 0, 1, 1],
    ⟨2, rfl⟩, fun _ _ => ⟨_, rfl⟩, cubOf_ok _ _ (by decide) (by norm_num) (by norm_num),
    cubOf_ok _ _ (by decide) (by norm_num) (by norm_num),
    by decide +kernel, by decide +kernel, by decide, by decide⟩

end Verif
